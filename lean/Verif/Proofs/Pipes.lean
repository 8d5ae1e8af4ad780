import Verif.Spec.Pipes
import Verif.Proofs.Start
import Verif.Proofs.Foreground
import Verif.Proofs.Builtin

/-!
# Typed pipelines of external commands
-/

namespace Rsh

open Spec

theorem wordsOf_args (as : List (Typed × Str)) : wordsOf (as.map fun a => .arg a.1) = as.map fun a => a.1.text := by
  induction as with
  | nil => rfl
  | cons a as ih => simp [wordsOf, ih]

theorem redirsOf_args (as : List (Typed × Str)) : redirsOf (as.map fun a => .arg a.1) = [] := by
  induction as with
  | nil => rfl
  | cons a as ih => simp [redirsOf, ih]

theorem Ext.tcmd_command {e : Ext} {s : Sh} (h : e.Simple s) : .simple e.tcmd.command = e.command := by
  unfold Ext.tcmd TCmd.command Ext.command
  simp only [wordsOf_args, redirsOf_args, h.pre, h.redirs, if_true, List.map_eq_nil_iff, and_true, Option.map_some,
    Option.getD_some, Typed.text]

theorem Ext.tcmd_ok {e : Ext} {s : Sh} (h : e.Simple s) : e.tcmd.Ok where
  before := by simp [Ext.tcmd]
  noArg := by simp [Ext.tcmd]
  name t ht := by
    simp only [Ext.tcmd, Option.some.injEq] at ht
    subst ht
    exact h.typed
  after p hp := by
    simp only [Ext.tcmd, List.mem_map] at hp
    obtain ⟨a, ha, rfl⟩ := hp
    exact h.args a ha
  some := by simp [Ext.tcmd]

theorem ExtPipe.line_ok {p : ExtPipe} {s : Sh} (h : ∀ e ∈ p.stages, e.Simple s) : p.line.Ok := by
  intro d hd
  have : d ∈ p.stages.map Ext.tcmd := by
    simpa [ExtPipe.line, TLine.cmds, TPipe.cmds, ExtPipe.stages] using hd
  obtain ⟨e, he, rfl⟩ := List.mem_map.1 this
  exact Ext.tcmd_ok (h e he)

theorem ExtPipe.parse {p : ExtPipe} {s : Sh} (h : ∀ e ∈ p.stages, e.Simple s) :
    Rsh.parse p.text = some (some [.mk none none (.mk false (p.stages.map Ext.command) p.background)]) := by
  unfold ExtPipe.text
  rw [parse_tline (ExtPipe.line_ok h)]
  have e : (p.stages.map Ext.tcmd).map (fun c => Command.simple c.command) = p.stages.map Ext.command := by
    rw [List.map_map]
    exact List.map_congr_left fun e he => Ext.tcmd_command (h e he)
  rw [← e]
  rfl

theorem ExtPipe.text_ne {p : ExtPipe} {s : Sh} (h : ∀ e ∈ p.stages, e.Simple s) : p.text ≠ [] :=
  TLine.text_ne (ExtPipe.line_ok h)

/-- The kids' programs. -/
theorem Kids.images {w : World} {rec : List AndOr → M Int} {b : Bool} {s : Sh} {es : List Ext} {kids : List Kid}
    (h : Kids w rec b s (es.map Ext.proc) kids) (hs : ∀ e ∈ es, e.Simple s) (hu : Uniq s.fds) {file : Ext → Str}
    (hrun : ∀ e ∈ es, ∀ tr, Runnable w s (tr ++ s.trace) e.name (file e)) :
    ∃ imgs : List ExecImage, imgs.length = es.length ∧
      (∃ pids : List Nat, pids.length = es.length ∧ kids = List.zipWith (fun pid img => (pid, .exec img, [])) pids imgs) ∧
      ∀ (i : Nat) e img, es[i]? = some e → imgs[i]? = some img →
        img.path = file e ∧ img.argv = e.argv ∧ img.env = s.env ∧ Launched s img ∧
        img.ownGroup = (b || s.ownGroup) ∧
        ∀ fd, img.fds.get fd = (stageFd s.fds (inPipe s.nextPipe i) (outPipe s.nextPipe i es.length) fd).filter
          fun e => !e.cloexec := by
  have key : ∀ (i : Nat) kid, kids[i]? = some kid → ∃ img e, kid.2 = (.exec img, []) ∧ es[i]? = some e ∧
        img.path = file e ∧ img.argv = e.argv ∧ img.env = s.env ∧ Launched s img ∧
        img.ownGroup = (b || s.ownGroup) ∧
        ∀ fd, img.fds.get fd = (stageFd s.fds (inPipe s.nextPipe i) (outPipe s.nextPipe i es.length) fd).filter
          fun e => !e.cloexec := by
    intro i kid hk
    have hlen : kids.length = es.length := by rw [h.length, List.length_map]
    have hi : i < es.length := by
      have := (List.getElem?_eq_some_iff.1 hk).1
      omega
    have he : es[i]? = some es[i] := List.getElem?_eq_getElem hi
    have hm : es[i] ∈ es := List.getElem_mem hi
    have hq : (es.map Ext.proc)[i]? = some es[i].proc := by rw [List.getElem?_map, he]; rfl
    have hkid := h.kid i _ kid hq hk
    rw [List.length_map] at hkid
    obtain ⟨img, h1, h2, h3, h4, h5, h6, h7⟩ := KidOk.image hkid (hs _ hm).ok.function (hs _ hm).pre (hs _ hm).redirs hu
      (fun tr => ⟨(hrun _ hm tr).path, (hrun _ hm tr).exec, (hrun _ hm tr).nul⟩)
    exact ⟨img, es[i], h1, he, h2, h3, h4, ⟨h5.1, h5.2, h5.3⟩, h6, h7⟩
  have hget : ∀ kid ∈ kids, ∃ img, kid.2 = (.exec img, []) := by
    intro kid hk
    obtain ⟨i, hi, e⟩ := List.mem_iff_getElem.1 hk
    obtain ⟨img, _, h1, -⟩ := key i kid (by rw [List.getElem?_eq_getElem hi, e])
    exact ⟨img, h1⟩
  have hsplit : ∀ ks : List Kid, (∀ kid ∈ ks, ∃ img, kid.2 = (.exec img, [])) →
      ∃ (pids : List Nat) (imgs : List ExecImage), pids.length = ks.length ∧ imgs.length = ks.length ∧
        ks = List.zipWith (fun pid img => (pid, ChildEnd.exec img, ([] : List Event))) pids imgs := by
    intro ks
    induction ks with
    | nil => exact fun _ => ⟨[], [], rfl, rfl, rfl⟩
    | cons k ks ih =>
      intro hk
      obtain ⟨pids, imgs, h1, h2, h3⟩ := ih fun k' hk' => hk k' (List.mem_cons_of_mem _ hk')
      obtain ⟨img, hi⟩ := hk k List.mem_cons_self
      refine ⟨k.1 :: pids, img :: imgs, by simp [h1], by simp [h2], ?_⟩
      rw [List.zipWith_cons_cons, ← h3, ← hi]
  obtain ⟨pids, imgs, h1, h2, h3⟩ := hsplit kids hget
  have hlen : kids.length = es.length := by rw [h.length, List.length_map]
  refine ⟨imgs, by rw [h2, hlen], ⟨pids, by rw [h1, hlen], h3⟩, fun i e img he hi => ?_⟩
  have hi' : i < imgs.length := (List.getElem?_eq_some_iff.1 hi).1
  have hp : i < pids.length := by omega
  have hk : kids[i]? = some (pids[i], .exec img, []) := by
    rw [h3, List.getElem?_zipWith, List.getElem?_eq_getElem hp, hi]
  obtain ⟨img', e', h4, h5, h6⟩ := key i _ hk
  cases h4
  rw [he] at h5
  cases h5
  exact h6

theorem stdTable_filter (inp out : Option Nat) (fd : Int) :
    (stageFd stdTable inp out fd).filter (fun e => !e.cloexec) = stageFd stdTable inp out fd := by
  cases hg : stageFd stdTable inp out fd with
  | none => rfl
  | some x =>
    have : x.cloexec = false := by
      have hstd : ∀ y, stdTable.get fd = some y → y.cloexec = false := by
        intro y hy
        have hm := lookup_mem hy
        simp only [stdTable, List.mem_cons, Prod.mk.injEq, List.not_mem_nil, or_false] at hm
        rcases hm with ⟨-, rfl⟩ | ⟨-, rfl⟩ | ⟨-, rfl⟩ <;> rfl
      unfold stageFd at hg
      split at hg <;> (repeat' split at hg) <;> first | exact hstd _ hg | (cases hg; rfl)
    simp [Option.filter, this]

theorem kid_events (pids : List Nat) (imgs : List ExecImage) :
    (List.zipWith (fun pid img => ((pid, ChildEnd.exec img, []) : Kid)) pids imgs).map Kid.event =
      List.zipWith (fun pid img => .spawn pid (.exec img) []) pids imgs := by
  induction pids generalizing imgs with
  | nil => rfl
  | cons p ps ih =>
    cases imgs with
    | nil => rfl
    | cons i is => simp [ih, Kid.event]

/-- Everything about the programs of a typed pipeline. -/
theorem extPipe_programs {w : World} (hw : Resources w) (n : Nat) {s : Sh} (hp : AtPrompt w s) {p : ExtPipe}
    (hok : ∀ e ∈ p.stages, e.Simple s) {file : Ext → Str}
    (hrun : ∀ e ∈ p.stages, ∀ tr, Runnable w s (tr ++ s.trace) e.name (file e)) :
    ∃ (pids : List Nat) (imgs : List ExecImage), pids.length = p.stages.length ∧ imgs.length = p.stages.length ∧
      Happened s (interactiveLine w (n + 1) p.text s).2
        (List.zipWith (fun pid img => .spawn pid (.exec img) []) pids imgs) ∧
      ∀ (i : Nat) e img, p.stages[i]? = some e → imgs[i]? = some img →
        img.path = file e ∧ img.argv = e.argv ∧ img.env = s.env ∧ Launched s img ∧
        img.ownGroup = p.background ∧
        ∀ fd, img.fds.get fd = stageFd stdTable (inPipe s.nextPipe i) (outPipe s.nextPipe i p.stages.length) fd := by
  have hfds := AtPrompt_resources_fds hw hp
  obtain ⟨kids, hk, hc⟩ := line_children hw n p.stages (by simp [ExtPipe.stages]) false p.background
    (fun e he => (hok e he).ok) (by rw [hfds]; exact stdTable_std) (ExtPipe.parse hok) (ExtPipe.text_ne hok)
  obtain ⟨imgs, h1, ⟨pids, h2, h3⟩, h4⟩ := Kids.images (file := file) hk
    (fun e he => ⟨⟨(hok e he).ok.plain, (hok e he).ok.external, (hok e he).ok.alias, (hok e he).ok.function,
      (hok e he).ok.args, (hok e he).ok.nul, (hok e he).ok.assign⟩, (hok e he).typed, (hok e he).args, (hok e he).pre,
      (hok e he).redirs⟩)
    (by show Uniq s.fds; rw [hfds]; exact uniq_stdTable)
    (fun e he tr => ⟨(hrun e he tr).path, (hrun e he tr).exec, (hrun e he tr).nul⟩)
  refine ⟨pids, imgs, h2, h1, ?_, fun i e img he hi => ?_⟩
  · rw [h3, kid_events] at hc
    exact hc
  · obtain ⟨a1, a2, a3, a4, a5, a6⟩ := h4 i e img he hi
    refine ⟨a1, a2, a3, ⟨a4.1, a4.2, a4.3⟩, ?_, fun fd => ?_⟩
    · rw [a5]
      show (p.background || s.ownGroup) = _
      rw [(AtPrompt_own hp).2.2, Bool.or_false]
    · rw [a6]
      show (stageFd s.fds (inPipe s.nextPipe i) (outPipe s.nextPipe i _) fd).filter _ = _
      rw [hfds, stdTable_filter]

/-- A pipeline of external commands in the foreground, while there is no other job. -/
theorem extPipe_foreground {w : World} (hw : Resources w) (n : Nat) {s : Sh} (hp : AtPrompt w s) {p : ExtPipe}
    (hok : ∀ e ∈ p.stages, e.Simple s) (hfg : p.background = false) (ht : s.jc.table = []) :
    ∃ kid kids, Kids w (evalFuel w n) false { s with masked := true } (p.stages.map Ext.proc) (kid :: kids) ∧
      Happened s (interactiveLine w (n + 1) p.text s).2 ((kid :: kids).map Kid.event) ∧
      ∀ (k : Nat) (code : Int) (sts : List (Int × Int)) (rest : List WRes),
        s.waits = List.replicate k .eintr ++ .st (.exited kid.1 code) ::
          (sts.map (fun p => .st (.exited p.1 p.2)) ++ rest) →
        .eintr ∉ rest → (kid.1 : Int) ∉ sts.map Prod.fst →
        (∀ q ∈ kids, q.1 ≠ kid.1 → (q.1 : Int) ∈ sts.map Prod.fst) →
        ∃ s', interactiveLine w (n + 1) p.text s = (.ok (), s') ∧ s'.exitStatus = code ∧ s'.masked = false ∧
          s'.jc.table = [] ∧ Ran s s' ∧
          (∃ ws : List WRes, s'.trace = ws.map .waited ++ .waited (.st (.exited kid.1 code)) ::
            (List.replicate k (.waited .eintr) ++ (((kid :: kids).map Kid.event).reverse ++ s.trace))) ∧
          (∀ q ∈ kid :: kids, ∃ c, .waited (.st (.exited q.1 c)) ∈ s'.trace) ∧
          ∀ more, rest = .err :: more → s'.waits = more := by
  have hfds := AtPrompt_resources_fds hw hp
  have hexp := evalCommands_ext w (evalFuel w n) (es := p.stages) (s := { s with masked := true })
    fun e he => ⟨(hok e he).ok.plain, (hok e he).ok.external, (hok e he).ok.alias, (hok e he).ok.function,
      (hok e he).ok.args, (hok e he).ok.nul, (hok e he).ok.assign⟩
  obtain ⟨kid, kids, hk, hsil, hrun⟩ := foreground_run hw (evalFuel w n) (.mk false (p.stages.map Ext.command) false) rfl
    (fun c hc => by
      obtain ⟨e, he, rfl⟩ := List.mem_map.1 hc
      exact Ext.plain_command (hok e he).ok) (by simp [Pipeline.seq, ExtPipe.stages]) hexp
    (fun q hq => by
      obtain ⟨e, he, rfl⟩ := List.mem_map.1 hq
      exact (hok e he).ok.function) (by rw [hfds]; exact stdTable_std) ht (AtPrompt_own hp).2.1
  have hparse := ExtPipe.parse hok
  rw [hfg] at hparse
  refine ⟨kid, kids, hk, ?_, fun k code sts rest h1 h2 h3 h4 => ?_⟩
  · obtain ⟨l, e, hl⟩ := interactiveLine_silent hparse (ExtPipe.text_ne hok) hsil
    exact ⟨l, hl, e⟩
  obtain ⟨s', a1, a2⟩ := hrun k code sts rest h1 h2 h3 h4
  exact ⟨s', interactiveLine_one hparse (ExtPipe.text_ne hok) a1, a2⟩

/-! ## For the examples -/

/-- An external command of plain words. -/
def plainExt (x : Str) (args : List Str) : Ext := { name := x, args := args.map fun a => (.plain a, a) }

/-- Its hypotheses, decidably (for the examples). -/
def plainExtOk (s : Sh) (x : Str) (args : List Str) : Bool :=
  decide (PlainWord x) && decide (∀ a ∈ args, PlainWord a) && decide (x ∉ builtins) &&
    decide (s.aliases.get x = none) && !s.ctx.isFunction x &&
    decide (∀ a ∈ x :: args, '\x00' ∉ a)

theorem plainExt_simple {s : Sh} {x : Str} {args : List Str} (h : plainExtOk s x args = true) :
    (plainExt x args).Simple s := by
  unfold plainExtOk at h
  simp only [Bool.and_eq_true, decide_eq_true_eq, Bool.not_eq_true'] at h
  obtain ⟨⟨⟨⟨⟨h1, h2⟩, h3⟩, h4⟩, h5⟩, h6⟩ := h
  refine ⟨⟨h1, h3, .inl ⟨h4, rfl, rfl⟩, h5, ?_, ?_, ?_⟩, h1, ?_, rfl, rfl⟩
  · intro a ha
    simp only [plainExt, Ext.words, List.append_nil, List.mem_map] at ha
    obtain ⟨b, hb, rfl⟩ := ha
    have := arrives_plain (get := valueOf s) (h2 b hb) []
    rw [List.append_nil] at this
    exact this
  · intro v hv
    have : v ∈ x :: args := by simpa [plainExt, Ext.argv, Ext.words, Function.comp_def] using hv
    exact h6 v this
  · intro p hp; cases hp
  · intro a ha
    simp only [plainExt, List.mem_map] at ha
    obtain ⟨b, hb, rfl⟩ := ha
    exact h2 b hb


end Rsh
