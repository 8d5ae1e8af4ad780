import Verif.Spec.Naming
import Verif.Props.Expansion
import Verif.Props.Words

/-!
# Properties C26 and C116: commands whose name is the value of a variable, and substitutions outside quotes
-/

namespace Rsh

open Spec

theorem evalNameWords_all (w : World) (rec : List AndOr → M Int) {ps : List Str}
    (h : ∀ p ∈ ps, p.head? ≠ some '"') (s : Sh) : evalNameWords w rec ps s = (.ok ps, s) := by
  induction ps with
  | nil => rfl
  | cons p ps ih =>
    have h1 : ¬ startsWith ['"'] p = true := fun e => h p List.mem_cons_self ((startsWith_single _ _).1 e)
    unfold evalNameWords
    simp only [h1, if_false, Bool.false_eq_true]
    rw [run_pure_bind, run_bind_ok (ih fun q hq => h q (List.mem_cons_of_mem _ hq))]
    rfl

/-- The command as the theorems about external commands have it. -/
def Spec.NamedLine.ext (l : NamedLine) : Ext :=
  { name := l.name, args := (l.front ++ l.args.map Prod.snd).map fun x => (.plain [], x) }

theorem Spec.NamedLine.ext_argv (l : NamedLine) : l.ext.argv = l.argv := by
  unfold Ext.argv Ext.words NamedLine.ext NamedLine.argv
  simp [Function.comp_def]

theorem NamedLine.cmd_ok {l : NamedLine} {s : Sh} (h : l.Ok s) : l.cmd.Ok := by
  refine ⟨by simp [NamedLine.cmd], by simp [NamedLine.cmd], ?_, ?_, by simp [NamedLine.cmd]⟩
  · intro t ht
    have : Typed.var l.var = t := by simpa [NamedLine.cmd] using ht
    rw [← this]
    exact h.typed
  · intro p hp
    obtain ⟨a, ha, rfl⟩ := List.mem_map.1 (show p ∈ l.args.map fun a => Part.arg a.1 from hp)
    exact (h.args a ha).1

theorem NamedLine.command {l : NamedLine} : l.cmd.command =
    ⟨none, '$' :: l.var, if l.args = [] then none else some ⟨[], l.args.map fun a => a.1.text⟩⟩ := by
  unfold TCmd.command NamedLine.cmd
  simp only [redirsOf_args, wordsOf_args, List.map_eq_nil_iff]
  simp [Typed.text]

theorem NamedLine.expand {l : NamedLine} {s : Sh} (h : l.Ok s) (w : World) (rec : List AndOr → M Int) :
    expandCommand w rec l.cmd.command s = (.ok l.ext.proc.2, s) := by
  have hval : expandWord s.ctx ('$' :: l.var) = l.value := by
    rw [expandWord_eq]
    show (valueOf s l.var).getD _ = _
    rw [h.value]; rfl
  have hsplit : splitQts l.value = some (l.name :: l.front) :=
    ((C26_splits_partial l.value h.narrow).2 _).2 h.pieces
  have hne : l.value ≠ [] := by
    intro e
    have := h.pieces
    rw [e] at hsplit
    exact absurd hsplit (by simp [splitQts, splitQtsAux, blen])
  have e1 : ¬ startsWith ['\''] l.value = true := fun e =>
    (h.quotes _ List.mem_cons_self).2 ((startsWith_single _ _).1 e)
  have hnames := evalNameWords_all w rec (ps := l.name :: l.front)
    (fun p hp => (h.quotes p (List.mem_cons_of_mem _ hp)).1) s
  rw [NamedLine.command]
  unfold expandCommand
  rw [run_bind_ok (aliasLookup_none (s := s) h.alias)]
  unfold expandVars
  rw [run_bind, run_getS_bind]
  unfold expandVarsIn
  simp only [Option.map_some, hval, unwrapM_some]
  show evalWords w rec _ s = _
  unfold evalWords
  simp only [e1, hne, Bool.false_eq_true, if_false]
  rw [run_pure_bind, hsplit, unwrapM_some, run_pure_bind, run_bind_ok hnames]
  by_cases ha : l.args = []
  · simp only [ha, if_true, Option.map_none]
    unfold Ext.proc NamedLine.ext Ext.words
    simp [Function.comp_def, ha]
  · have hs := evalSuffixWords_means w rec (m := s.ctx) l.args (fun a x => (h.args a x).2) s
    simp only [ha, if_false, Option.map_some, List.map_map]
    rw [if_neg (by simpa using ha)]
    rw [show l.args.map (expandWord s.ctx ∘ fun a => a.1.text) =
        l.args.map fun a => expandWord s.ctx a.1.text from rfl, run_bind_ok hs]
    unfold Ext.proc NamedLine.ext Ext.words
    simp [Function.comp_def]

/-- **C26**: when the name of a command is a variable, its value is cut at the blanks outside quotes: the
first piece is the program that runs, the others are its first arguments, and the arguments of the line
follow. -/
theorem C26_words (w : World) (hw : Resources w) (n : Nat) (s : Sh) (hp : AtPrompt w s) (l : NamedLine)
    (hok : l.Ok s) (file : Str) (hrun : ∀ tr, Runnable w s (tr ++ s.trace) l.name file) :
    ∃ pid img, Happened s (interactiveLine w (n + 1) l.cmd.line.text s).2 [.spawn pid (.exec img) []] ∧
      img.path = file ∧ img.argv = l.argv ∧ img.env = s.env ∧ ∀ fd, img.fds.get fd = stdTable.get fd := by
  have hfds := AtPrompt_resources_fds hw hp
  have hok' : l.Ok { s with masked := true } :=
    ⟨hok.typed, hok.value, hok.pieces, hok.narrow, hok.quotes, hok.alias, hok.function, hok.args, hok.nul⟩
  have harg : argvOf l.ext.proc.2 = some l.ext.argv := by
    unfold argvOf
    show (if l.ext.argv.any (hasChar '\x00') then none else some l.ext.argv) = _
    rw [if_neg]
    rw [List.any_eq_true, NamedLine.ext_argv]
    rintro ⟨x, hx, hn⟩
    exact hok.nul x hx (hasChar_iff.1 hn)
  have hcmds : evalCommands w (evalFuel w n) [.simple l.cmd.command] { s with masked := true } =
      (.ok [l.ext.proc], { s with masked := true }) := by
    unfold evalCommands evalCommand evalSimple
    simp only
    rw [if_neg (by
      rw [isBuiltin_iff, NamedLine.command]
      intro hm
      have : ∀ b ∈ builtins, b.head? ≠ some '$' := by decide
      exact this _ hm rfl), run_bind, run_bind_ok (NamedLine.expand hok' w _), harg]
    rfl
  obtain ⟨kids, hk, hl⟩ := pipeline_launch hw (evalFuel w n) (.mk false [.simple l.cmd.command] false) hcmds (by simp)
    (fun q hq => by rw [List.mem_singleton.1 hq]; exact hok.function)
    (by show StdFds s.fds; rw [hfds]; exact stdTable_std)
  have hsil : Silent (launched { s with masked := true } false [l.ext.proc] kids)
      (evalPipeline w (evalFuel w n) (.mk false [.simple l.cmd.command] false) s).2 := by
    rw [hl]
    have S := Silent.seq
    apply silent_post
    refine Keeps.bind S (silent_afterFork w false _ _) (fun _ => ?_) _
    refine .bind (m := interruptsOn) S (silent_modS fun _ => rfl) fun _ => ?_
    exact .bind S (.getS S) fun _ => .pure S _
  have hlo := TCmd.line_ok (NamedLine.cmd_ok hok)
  obtain ⟨q, hq, hquiet⟩ := interactiveLine_silent (TCmd.parse (NamedLine.cmd_ok hok)) (TLine.text_ne hlo) hsil
  have hlen := hk.length
  rcases kids with _ | ⟨kid, _ | ⟨kid', kids⟩⟩
  · simp at hlen
  · obtain ⟨img, hi, g1, g2, g3, -, -, g6⟩ := KidOk.image (hk.kid 0 _ kid rfl rfl) hok.function rfl rfl
      (by show Uniq s.fds; rw [hfds]; exact uniq_stdTable) (fun tr =>
        ⟨(hrun tr).path, (hrun tr).exec, (hrun tr).nul⟩)
    refine ⟨kid.1, img, ⟨q, hquiet, ?_⟩, g1, ?_, g3, ?_⟩
    · rw [hq]
      have : kid.event = .spawn kid.1 (.exec img) [] := by unfold Kid.event; rw [hi]
      unfold launched
      simp only [List.map_cons, List.map_nil, this]
    · rw [g2, NamedLine.ext_argv]
    · intro fd
      rw [g6]
      show (stageFd s.fds none none fd).filter _ = _
      rw [hfds]
      exact stdTable_filter none none fd
  · simp at hlen

/-- `$X f 'g h'` where `X` is `ls -l a`. -/
def demoNamed : NamedLine :=
  { var := cs!"X", value := cs!"ls -l a", name := cs!"ls", front := [cs!"-l", cs!"a"],
    args := [(.plain (cs!"f"), cs!"f"), (.single (cs!"g h"), cs!"g h")] }

theorem demoNamed_ok : demoNamed.Ok (atPrompt [cs!"X='ls -l a'"]) where
  typed := by decide
  value := by decide +kernel
  pieces := ((C26_splits_partial (cs!"ls -l a") fun c hc => by
    obtain ⟨a, b, e, -⟩ := hc
    have : c ∈ (cs!"ls -l a" : Str) := by rw [e]; simp
    revert this
    exact (by decide : ∀ c ∈ (cs!"ls -l a" : Str), c.utf8Size = 1) c).2 _).1 (by decide)
  narrow := fun c hc => by
    obtain ⟨a, b, e, -⟩ := hc
    have : c ∈ (cs!"ls -l a" : Str) := by
      rw [show (cs!"ls -l a" : Str) = demoNamed.value from rfl, e]; simp
    exact (by decide : ∀ c ∈ (cs!"ls -l a" : Str), c.utf8Size = 1) c this
  quotes := by decide
  alias := by decide +kernel
  function := by decide +kernel
  args := by decide +kernel
  nul := by decide

example : demoNamed.cmd.line.text = cs!" $X f 'g h'" ∧
    started (demo [cs!"X='ls -l a'", demoNamed.cmd.line.text]).trace =
      [[cs!"ls", cs!"-l", cs!"a", cs!"f", cs!"g h"]] := by
  decide +kernel

example : ∃ pid img, Happened (atPrompt [cs!"X='ls -l a'"])
    (interactiveLine (demoWorld []) 19 demoNamed.cmd.line.text (atPrompt [cs!"X='ls -l a'"])).2
      [.spawn pid (.exec img) []] ∧ img.argv = [cs!"ls", cs!"-l", cs!"a", cs!"f", cs!"g h"] := by
  obtain ⟨pid, img, h1, -, h2, -⟩ := C26_words (demoWorld []) (demo_resources []) 18 (atPrompt [cs!"X='ls -l a'"])
    (atPrompt_ok (by decide +kernel)) demoNamed demoNamed_ok (cs!"/bin/" ++ cs!"ls")
    (fun tr => demo_runnable (by decide +kernel) (by decide) (by decide) _)
  exact ⟨pid, img, h1, h2⟩

/-! ## C116 -/

/-- **C116** fails, always: outside quotes a command substitution is passed to the program as it is typed (unless
there is a variable with such a name), and its command is not run. -/
theorem C116_literal (w : World) (hw : Resources w) (n : Nat) (s : Sh) (hp : AtPrompt w s) (c : CmdLine)
    (hok : c.Ok s) (i : Nat) (b : Str) (t : Typed) (v : Str) (ha : c.args[i]? = some (b, t, v))
    (ht : (∃ x, t = .subst x ∧ valueOf s ('(' :: (x ++ [')'])) = none) ∨ ∃ x, t = .backtick x)
    (file : Str) (hrun : ∀ tr, Runnable w s (tr ++ s.trace) c.name file) :
    ∃ pid img, Happened s (interactiveLine w (n + 1) c.text s).2 [.spawn pid (.exec img) []] ∧
      img.argv[i + 1]? = some t.text := by
  obtain ⟨pid, img, h1, -, -, h3, -⟩ := cmdLine_program hw n hp hok hrun
  refine ⟨pid, img, h1, ?_⟩
  rw [h3, arg_value ha]
  have := arg_means hok ha
  unfold Typed.Means at this
  congr 1
  rcases ht with ⟨x, rfl, hx⟩ | ⟨x, rfl⟩
  · rw [show expansion (valueOf s) (Typed.text (.subst x)) =
      (valueOf s ('(' :: (x ++ [')']))).getD ('$' :: '(' :: (x ++ [')'])) from rfl, hx] at this
    simpa [Arrives, Typed.text] using this
  · rw [show expansion (valueOf s) (Typed.text (.backtick x)) = Typed.text (.backtick x) from rfl] at this
    simpa [Arrives, Typed.text] using this

/-- **C116**: this is so for the session `a $(b c) d`. -/
theorem C116_counterexample :
    started (demo [cs!"a $(b c) d"]).trace = [[cs!"a", cs!"$(b c)", cs!"d"]] ∧
    started (demo [cs!"a `b c` d"]).trace = [[cs!"a", cs!"`b c`", cs!"d"]] := by
  decide +kernel

/-- `a $(b c) d`. -/
def demoUnquoted : CmdLine :=
  { word := cs!"a", args := [([' '], .subst (cs!"b c"), cs!"$(b c)"), ([' '], .plain (cs!"d"), cs!"d")] }

example : ∃ pid img, Happened (atPrompt []) (interactiveLine (demoWorld []) 19 demoUnquoted.text (atPrompt [])).2
    [.spawn pid (.exec img) []] ∧ img.argv[1]? = some (cs!"$(b c)") :=
  C116_literal (demoWorld []) (demo_resources []) 18 (atPrompt []) (atPrompt_ok (by decide +kernel)) demoUnquoted
    ⟨by decide, by decide, by decide, by decide, by decide,
      ⟨by decide, by decide, .inl (by decide +kernel), by decide +kernel, by decide +kernel, by decide,
       by simp [demoUnquoted, CmdLine.ext]⟩⟩ 0 _ _ _ rfl (.inl ⟨_, rfl, by decide +kernel⟩)
    (cs!"/bin/" ++ cs!"a") (fun tr => demo_runnable (by decide +kernel) (by decide) (by decide) _)

end Rsh
