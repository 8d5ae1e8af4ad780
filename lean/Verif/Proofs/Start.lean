import Verif.Proofs.External
import Verif.Proofs.Layout

/-!
# What a line of external commands starts, whatever happens afterwards
-/

namespace Rsh

open Spec

/-- A pipeline of external commands starts them all, then only waits. -/
theorem evalPipeline_ext {w : World} (hw : Resources w) (rec : List AndOr → M Int) (es : List Ext)
    (hne : es ≠ []) (bang b : Bool) {s : Sh} (hok : ∀ e ∈ es, e.Ok s) (hfds : StdFds s.fds) :
    ∃ kids, Kids w rec b { s with masked := true } (es.map Ext.proc) kids ∧
      Silent (launched { s with masked := true } b (es.map Ext.proc) kids)
        (evalPipeline w rec (.mk bang (es.map Ext.command) b) s).2 := by
  have hexp := evalCommands_ext w rec (es := es) (s := { s with masked := true })
    fun e he => ⟨(hok e he).plain, (hok e he).external, (hok e he).alias, (hok e he).function,
      (hok e he).args, (hok e he).nul, (hok e he).assign⟩
  obtain ⟨kids, hk, hrun⟩ := pipeline_launch hw rec (.mk bang (es.map Ext.command) b) hexp (by simpa using hne)
    (fun q hq => by
      obtain ⟨e, he, rfl⟩ := List.mem_map.1 hq
      exact (hok e he).function) hfds
  refine ⟨kids, hk, ?_⟩
  rw [hrun]
  have S := Silent.seq
  apply silent_post
  refine Keeps.bind S (silent_afterFork w b _ _) (fun _ => ?_) _
  refine .bind (m := interruptsOn) S (silent_modS fun _ => rfl) fun _ => ?_
  exact .bind S (.getS S) fun _ => .pure S _

theorem interactiveLine_silent {w : World} {n : Nat} {input : Str} {pl : Pipeline}
    (h : parse input = some (some [.mk none none pl])) {s s0 : Sh} (hne : input ≠ [])
    (he : Silent s0 (evalPipeline w (evalFuel w n) pl s).2) :
    Silent s0 (interactiveLine w (n + 1) input s).2 := by
  have e1 : (evalTop w (n + 1) (some [.mk none none pl]) : M Int) s = evalPipeline w (evalFuel w n) pl s := by
    show evalListFrom w (evalFuel w n) (-1) [.mk none none pl] s = _
    unfold evalListFrom evalAndOr evalListFrom
    rw [run_bind]
    rcases evalPipeline w (evalFuel w n) pl s with ⟨o, s1⟩
    cases o <;> rfl
  unfold interactiveLine
  rw [if_neg hne, h]
  simp only
  rw [run_bind, run_tryE, e1]
  rcases hE : evalPipeline w (evalFuel w n) pl s with ⟨o, s1⟩
  rw [hE] at he
  cases o with
  | ok a => exact he
  | err m => exact he.trans (silent_post (silent_printM _ s1))
  | _ => exact he

/-- The children a pipeline starts. -/
theorem line_children {w : World} (hw : Resources w) (n : Nat) (es : List Ext)
    (hne : es ≠ []) (bang b : Bool) {s : Sh} (hok : ∀ e ∈ es, e.Ok s) (hfds : StdFds s.fds) {input : Str}
    (h : parse input = some (some [.mk none none (.mk bang (es.map Ext.command) b)])) (hin : input ≠ []) :
    ∃ kids, Kids w (evalFuel w n) b { s with masked := true } (es.map Ext.proc) kids ∧
      Happened s (interactiveLine w (n + 1) input s).2 (kids.map Kid.event) := by
  obtain ⟨kids, hk, hs⟩ := evalPipeline_ext hw (evalFuel w n) es hne bang b hok hfds
  obtain ⟨l, e, hl⟩ := interactiveLine_silent h hin hs
  exact ⟨kids, hk, l, hl, e⟩

theorem uniq_stdTable : Uniq stdTable := by unfold Uniq; decide

theorem AtPrompt_resources_fds {w : World} (hw : Resources w) {s : Sh} (hp : AtPrompt w s) :
    s.fds = stdTable := AtPrompt_fds hw.pipe hp

/-- One external command: the child and its program. -/
theorem line_program {w : World} (hw : Resources w) (n : Nat) {s : Sh} (hp : AtPrompt w s) {e : Ext}
    (hok : e.Ok s) (hpre : e.pre = none) (hred : e.redirs = []) {input : Str} (bang b : Bool)
    (h : parse input = some (some [.mk none none (.mk bang [e.command] b)])) (hin : input ≠ []) {file : Str}
    (hrun : ∀ tr, Runnable w s (tr ++ s.trace) e.name file) :
    ∃ pid img, Happened s (interactiveLine w (n + 1) input s).2 [.spawn pid (.exec img) []] ∧
      w.fork s.trace = some pid ∧
      img.path = file ∧ img.argv = e.argv ∧ img.env = s.env ∧ Launched s img ∧ img.ownGroup = b ∧
      ∀ fd, img.fds.get fd = stdTable.get fd := by
  have hfds := AtPrompt_resources_fds hw hp
  obtain ⟨kids, hk, hc⟩ := line_children hw n [e] (by simp) bang b (by simpa using hok)
    (by rw [hfds]; exact stdTable_std) h hin
  have hl := hk.length
  rcases kids with _ | ⟨kid, _ | ⟨kid', kids⟩⟩
  · simp at hl
  · have hkid := hk.kid 0 e.proc kid rfl rfl
    obtain ⟨img, hi, h1, h2, h3, h4, h5, h6⟩ := KidOk.image hkid hok.function hpre hred
      (by show Uniq s.fds; rw [hfds]; exact uniq_stdTable) (fun tr => ⟨(hrun tr).path, (hrun tr).exec, (hrun tr).nul⟩)
    refine ⟨kid.1, img, ?_, hk.pid 0 kid rfl, h1, h2, h3, ⟨h4.1, h4.2, h4.3⟩, ?_, fun fd => ?_⟩
    · have : kid.event = .spawn kid.1 (.exec img) [] := by unfold Kid.event; rw [hi]
      rw [← this]
      exact hc
    · rw [h5]
      show (b || s.ownGroup) = b
      rw [(AtPrompt_own hp).2.2, Bool.or_false]
    · rw [h6]
      show (FdTable.get s.fds fd).filter _ = _
      rw [hfds]
      cases hg : stdTable.get fd with
      | none => rfl
      | some x =>
        have hm := lookup_mem hg
        have : x.cloexec = false := by
          simp only [stdTable, List.mem_cons, Prod.mk.injEq, List.not_mem_nil, or_false] at hm
          rcases hm with ⟨-, rfl⟩ | ⟨-, rfl⟩ | ⟨-, rfl⟩ <;> rfl
        simp [Option.filter, this]
  · simp at hl

/-- The line with one blank before each argument. -/
def Spec.CmdLine.spaced (c : CmdLine) : CmdLine := { c with args := c.args.map fun a => ([' '], a.2) }

theorem layout_apart {t : Typed} {b : Str} {l : List (Str × Typed)} (ht : t.Ok) (hb : ∀ c ∈ b, Blank c)
    (hl : ∀ a ∈ l, (∀ c ∈ a.1, Blank c) ∧ a.2.Ok) (h : Apart t l) :
    Layout ((b, .word t) :: l.map fun a => (a.1, .word a.2)) := by
  induction l generalizing t b with
  | nil => exact .one hb ht
  | cons a l ih =>
    obtain ⟨h1, h2⟩ := hl a List.mem_cons_self
    exact .cons hb ht h.1 (ih h2 h1 (fun a ha => hl a (List.mem_cons_of_mem _ ha)) h.2)

theorem toks_cmdLine {c : CmdLine} {s : Sh} (h : c.Ok s) :
    toks c.text = some (.word c.word :: (c.args.map fun a => .word a.2.1.text) ++ [.eof]) := by
  have h1 : toks c.trail = some [.eof] := by
    have := toks_blanks c.trail [] h.trail
    rwa [List.append_nil, toks_nil] at this
  have hl := layout_apart (t := .plain c.word) (b := c.lead) (l := c.args.map fun a => (a.1, a.2.1)) h.word h.lead
    (fun a ha => by
      obtain ⟨a', ha', rfl⟩ := List.mem_map.1 ha
      exact ⟨h.blanks.1 a' ha', h.args a' ha'⟩) h.blanks.2
  have ht := toks_laidOut hl (e := c.trail) (ts := [.eof]) ⟨h1, fun d hd => .inl (h.trail d (by
    cases hc : c.trail with
    | nil => rw [hc] at hd; cases hd
    | cons x xs => rw [hc] at hd; cases hd; exact List.mem_cons_self))⟩
  rw [show c.text = laidOut ((c.lead, .word (.plain c.word)) :: (c.args.map fun a => (a.1, a.2.1)).map fun a => (a.1, .word a.2))
    c.trail by simp [CmdLine.text, laidOut, Sym.text, Typed.text, Function.comp_def], ht]
  rw [List.flatMap_cons, List.flatMap_map, List.flatMap_map]
  show some (Token.word c.word :: (c.args.flatMap fun a => [Token.word a.2.1.text]) ++ [Token.eof]) = _
  rw [← List.map_eq_flatMap]

theorem parse_cmdLine {c : CmdLine} {s : Sh} (h : c.Ok s) :
    parse c.text = some (some [.mk none none (.mk false [c.ext.command] false)]) ∧ c.text ≠ [] := by
  have := parse_line c.lead (.plain c.word) (c.spaced.args.map fun a => (a.1, a.2.1)) c.trail h.word
    (fun p hp => by
      obtain ⟨a, ha, rfl⟩ := List.mem_map.1 hp
      obtain ⟨a', ha', rfl⟩ := List.mem_map.1 ha
      exact h.args a' ha')
    ⟨fun p hp => by
      simp only [Spec.CmdLine.spaced, List.map_map, List.mem_cons, List.mem_map] at hp
      rcases hp with rfl | ⟨a, ha, rfl⟩
      · exact h.lead
      · simp [Blank]; decide,
     fun p hp => by
      simp only [Spec.CmdLine.spaced, List.map_map, List.tail_cons, List.mem_map] at hp
      obtain ⟨a, ha, rfl⟩ := hp
      simp, h.trail⟩
  have hsp : c.spaced.Ok s := ⟨h.lead, h.trail, ⟨fun a ha => by
      obtain ⟨a, ha, rfl⟩ := List.mem_map.1 ha
      simp [Blank]; decide, by
      have : ∀ (t : Typed) (l : List (Str × Typed × Str)), Apart t ((l.map fun a => ([' '], a.2)).map fun a => (a.1, a.2.1)) := by
        intro t l
        induction l generalizing t with
        | nil => trivial
        | cons a l ih => exact ⟨(fun e => by cases e), ih _⟩
      exact this _ _⟩, h.word, fun a ha => by
      obtain ⟨a', ha', rfl⟩ := List.mem_map.1 ha
      exact h.args a' ha', by
      have := h.ext
      simpa [CmdLine.ext, Spec.CmdLine.spaced, Function.comp_def] using this⟩
  constructor
  · have e : parse c.text = parse c.spaced.text := by
      unfold parse
      rw [lex_toks, lex_toks, toks_cmdLine h, toks_cmdLine hsp]
      simp [Spec.CmdLine.spaced, Function.comp_def]
    rw [e, show c.spaced.text = line ((c.lead, Typed.text (.plain c.word)) ::
      (c.spaced.args.map fun a => (a.1, a.2.1)).map fun p => (p.1, p.2.text)) c.trail by
        simp [CmdLine.text, Spec.CmdLine.spaced, Typed.text, Function.comp_def], this]
    unfold wordsCommand Ext.command CmdLine.ext sufOf Spec.CmdLine.spaced
    cases hc : c.args with
    | nil => simp [Typed.text]
    | cons a as => simp [Typed.text, Function.comp_def]
  · have := h.word.1
    simp [CmdLine.text, line, this]

theorem CmdLine.ext_argv (c : CmdLine) : c.ext.argv = c.argv := by
  simp [CmdLine.ext, Ext.argv, Ext.words, CmdLine.argv, Function.comp_def]

/-- A line with one external command. -/
theorem cmdLine_program {w : World} (hw : Resources w) (n : Nat) {s : Sh} (hp : AtPrompt w s) {c : CmdLine}
    (hok : c.Ok s) {file : Str} (hrun : ∀ tr, Runnable w s (tr ++ s.trace) c.name file) :
    ∃ pid img, Happened s (interactiveLine w (n + 1) c.text s).2 [.spawn pid (.exec img) []] ∧
      w.fork s.trace = some pid ∧
      img.path = file ∧ img.argv = c.argv ∧ img.env = s.env ∧ Launched s img ∧ img.ownGroup = false ∧
      ∀ fd, img.fds.get fd = stdTable.get fd := by
  obtain ⟨h1, h2⟩ := parse_cmdLine hok
  rw [← CmdLine.ext_argv]
  exact line_program hw n hp hok.ext rfl rfl false false h1 h2 hrun

end Rsh
