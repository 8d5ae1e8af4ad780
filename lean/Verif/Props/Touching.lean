import Verif.Props.Words

/-!
# Properties C139-C141: variables without a value, the last status, and words written together
-/

namespace Rsh

open Spec

/-! ## C139 -/

theorem means_var {get : Str → Option Str} {x v : Str} (hm : (Typed.var x).Means get v)
    (h1 : ∀ u, get x = some u → u.head? ≠ some '"') (h2 : ∀ u, get x = some u → u.head? ≠ some '\'') :
    v = (get x).getD ('$' :: x) := by
  unfold Typed.Means at hm
  rw [show expansion get (Typed.text (.var x)) = (get x).getD ('$' :: x) from rfl] at hm
  unfold Arrives at hm
  cases hx : get x with
  | none =>
    rw [hx, Option.getD_none, if_neg (by simp), if_neg (by simp)] at hm
    exact hm
  | some u =>
    rw [hx, Option.getD_some, if_neg (h2 u hx), if_neg (h1 u hx)] at hm
    exact hm

/-- C139 fails for every name: an argument `$name`, when there is no variable of that name, reaches the command as the
text `$name`. -/
theorem C139_literal (w : World) (hw : Resources w) (n : Nat) (s : Sh) (hp : AtPrompt w s) (c : CmdLine)
    (hok : c.Ok s) (i : Nat) (b x v : Str) (ha : c.args[i]? = some (b, .var x, v)) (hv : valueOf s x = none)
    (file : Str) (hrun : ∀ tr, Runnable w s (tr ++ s.trace) c.name file) :
    ∃ pid img, Happened s (interactiveLine w (n + 1) c.text s).2 [.spawn pid (.exec img) []] ∧
      img.argv[i + 1]? = some ('$' :: x) := by
  obtain ⟨pid, img, e1, -, -, e3, -⟩ := cmdLine_program hw n hp hok hrun
  refine ⟨pid, img, e1, ?_⟩
  rw [e3, arg_value ha, means_var (arg_means hok ha) (by simp [hv]) (by simp [hv]), hv]
  rfl

/-- C139: every such argument is covered above. -/
theorem C139_any (get : Str → Option Str) (x : Str) (h : get x = none) : (Typed.var x).Means get ('$' :: x) := by
  unfold Typed.Means
  rw [show expansion get (Typed.text (.var x)) = (get x).getD ('$' :: x) from rfl, h]
  unfold Arrives
  simp

/-- C139 fails for an assignment too: `X=$Y` makes the value of `X` the text `$Y`. -/
theorem C139_counterexample :
    let s := demo [cs!"X=$Y", cs!"echo $X $Y", cs!"Y=v", cs!"echo $X $Y"] [.st (.exited 100 0)]
    valueOf s (cs!"X") = some (cs!"$Y") ∧
      started s.trace = [[cs!"echo", cs!"$Y", cs!"$Y"], [cs!"echo", cs!"$Y", cs!"v"]] := by
  decide +kernel

/-- A line with a variable that is not set, and parts written together. -/
def sampleT : CmdLine where
  word := cs!"prog"
  args := [([], .var (cs!"Y"), cs!"$Y"), (cs!" ", .plain (cs!"a"), cs!"a"), ([], .var (cs!"X"), cs!"v"),
    ([], .var (cs!"?"), cs!"$?"), (cs!" ", .single (cs!"p q"), cs!"p q"), ([], .double (cs!"r"), cs!"r"),
    ([], .mixed (cs!"s't'"), cs!"s't'"), ([], .backtick (cs!"u"), cs!"`u`")]

/-- The hypotheses of C139-C141 are met by `sampleT`. -/
example : AtPrompt (demoWorld []) (atPrompt [cs!"X=v"]) ∧ sampleT.Ok (atPrompt [cs!"X=v"]) ∧
    sampleT.text = cs!"prog$Y a$X$? 'p q'\"r\"s't'`u`" ∧ valueOf (atPrompt [cs!"X=v"]) (cs!"Y") = none ∧
    ∀ tr, Runnable (demoWorld []) (atPrompt [cs!"X=v"]) tr sampleT.name (cs!"/bin/prog") :=
  ⟨atPrompt_ok (by decide +kernel),
   ⟨by decide, by decide, by decide, by decide, by decide,
    ⟨by decide, by decide, .inl (by decide +kernel), by decide +kernel, by decide +kernel, by decide,
     by simp [sampleT, CmdLine.ext]⟩⟩,
   by decide, by decide +kernel, fun tr => demo_runnable (by decide +kernel) (by decide) (by decide) tr⟩

/-! ## C140 -/

/-- C140 fails at every prompt: an argument `$?` reaches the command as the value of a variable named `?`, or as the text
`$?` if there is none: the statuses of the commands before play no part. -/
theorem C140_blind (w : World) (hw : Resources w) (n : Nat) (s : Sh) (hp : AtPrompt w s) (c : CmdLine)
    (hok : c.Ok s) (i : Nat) (b v : Str) (ha : c.args[i]? = some (b, .var (cs!"?"), v))
    (h1 : ∀ u, valueOf s (cs!"?") = some u → u.head? ≠ some '"' ∧ u.head? ≠ some '\'')
    (file : Str) (hrun : ∀ tr, Runnable w s (tr ++ s.trace) c.name file) :
    ∃ pid img, Happened s (interactiveLine w (n + 1) c.text s).2 [.spawn pid (.exec img) []] ∧
      img.argv[i + 1]? = some ((valueOf s (cs!"?")).getD (cs!"$?")) := by
  obtain ⟨pid, img, e1, -, -, e3, -⟩ := cmdLine_program hw n hp hok hrun
  refine ⟨pid, img, e1, ?_⟩
  rw [e3, arg_value ha, means_var (arg_means hok ha) (fun u hu => (h1 u hu).1) fun u hu => (h1 u hu).2]

/-- C140 fails: after a command that ended with status 3, and after one that is not found, `$?` is the text `$?`; and
an assignment to `?` is obeyed. -/
theorem C140_counterexample :
    started (demo [cs!"a", cs!"echo $?"] [.st (.exited 100 3)]).trace = [[cs!"a"], [cs!"echo", cs!"$?"]] ∧
      started (demo [cs!"?=7", cs!"echo $?"]).trace = [[cs!"echo", cs!"7"]] := by
  decide +kernel

/-! ## C141 -/

/-- C141 fails wherever the shell sees the parts at all: a variable, a quoted text or a substitution written directly after
another word, and any word written directly after a quoted text or a substitution, reaches the command as an argument of
its own. -/
theorem C141_separate (w : World) (hw : Resources w) (n : Nat) (s : Sh) (hp : AtPrompt w s) (c : CmdLine)
    (hok : c.Ok s) (i : Nat) (b v v' : Str) (t u : Typed) (ha : c.args[i]? = some (b, t, v))
    (ha' : c.args[i + 1]? = some ([], u, v'))
    (file : Str) (hrun : ∀ tr, Runnable w s (tr ++ s.trace) c.name file) :
    ∃ pid img, Happened s (interactiveLine w (n + 1) c.text s).2 [.spawn pid (.exec img) []] ∧
      img.argv[i + 1]? = some v ∧ img.argv[i + 2]? = some v' := by
  obtain ⟨pid, img, e1, -, -, e3, -⟩ := cmdLine_program hw n hp hok hrun
  refine ⟨pid, img, e1, ?_, ?_⟩
  · rw [e3, arg_value ha]
  · rw [e3, arg_value ha']

/-- C141 fails for the name of the command: what is written directly after it is its first argument. -/
theorem C141_name (w : World) (hw : Resources w) (n : Nat) (s : Sh) (hp : AtPrompt w s) (c : CmdLine)
    (hok : c.Ok s) (u : Typed) (v : Str) (ha : c.args[0]? = some ([], u, v))
    (file : Str) (hrun : ∀ tr, Runnable w s (tr ++ s.trace) c.name file) :
    ∃ pid img, Happened s (interactiveLine w (n + 1) c.text s).2 [.spawn pid (.exec img) []] ∧
      img.path = file ∧ img.argv[0]? = some c.name ∧ img.argv[1]? = some v := by
  obtain ⟨pid, img, e1, -, e2, e3, -⟩ := cmdLine_program hw n hp hok hrun
  refine ⟨pid, img, e1, e2, ?_, ?_⟩
  · rw [e3]
    rfl
  · rw [e3, arg_value ha]

theorem means_mixed {get : Str → Option Str} {t v : Str} (h : MixedWord t)
    (hm : (Typed.mixed t).Means get v) : v = t := by
  unfold Typed.Means at hm
  have e1 : expansion get t = t := by
    cases t with
    | nil => rfl
    | cons x xs =>
      unfold expansion
      split
      · rename_i e
        cases e
        exact absurd rfl (mixedWord_head h (by decide))
      · rfl
  rw [show Typed.text (.mixed t) = t from rfl, e1] at hm
  unfold Arrives at hm
  rw [if_neg (mixedWord_head h (by decide)), if_neg (mixedWord_head h (by decide))] at hm
  exact hm

/-- C141 fails for quotes: those that do not begin a word are characters like any other, and reach the command. -/
theorem C141_quotes (w : World) (hw : Resources w) (n : Nat) (s : Sh) (hp : AtPrompt w s) (c : CmdLine)
    (hok : c.Ok s) (i : Nat) (b x v : Str) (ha : c.args[i]? = some (b, .mixed x, v))
    (file : Str) (hrun : ∀ tr, Runnable w s (tr ++ s.trace) c.name file) :
    ∃ pid img, Happened s (interactiveLine w (n + 1) c.text s).2 [.spawn pid (.exec img) []] ∧
      img.argv[i + 1]? = some x := by
  obtain ⟨pid, img, e1, -, -, e3, -⟩ := cmdLine_program hw n hp hok hrun
  refine ⟨pid, img, e1, ?_⟩
  have hx : MixedWord x := hok.args _ (List.mem_of_getElem? ha)
  rw [e3, arg_value ha, means_mixed hx (arg_means hok ha)]

/-- C141: every such word is covered above. -/
theorem C141_any (get : Str → Option Str) (t : Str) (h : MixedWord t) : (Typed.mixed t).Means get t := by
  unfold Typed.Means
  have e1 : expansion get t = t := by
    cases t with
    | nil => rfl
    | cons x xs =>
      unfold expansion
      split
      · rename_i e
        cases e
        exact absurd rfl (mixedWord_head h (by decide))
      · rfl
  rw [show Typed.text (.mixed t) = t from rfl, e1]
  unfold Arrives
  rw [if_neg (mixedWord_head h (by decide)), if_neg (mixedWord_head h (by decide))]

/-- C141 fails: some lines. -/
theorem C141_counterexample :
    started (demo [cs!"X=v", cs!"echo a$X$X", cs!"echo $X/b"] [.st (.exited 100 0)]).trace =
      [[cs!"echo", cs!"a", cs!"v", cs!"v"], [cs!"echo", cs!"$X/b"]] ∧
    started (demo [cs!"echo 'a b'\"c\"d", cs!"echo a'b c'd"] [.st (.exited 100 0)]).trace =
      [[cs!"echo", cs!"a b", cs!"c", cs!"d"], [cs!"echo", cs!"a'b", cs!"c'd"]] := by
  decide +kernel

end Rsh
