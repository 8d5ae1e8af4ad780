import Verif.Props.Layout
import Verif.Spec.Demo

/-!
# Property C159: a command means the same in a script as when typed
-/

namespace Rsh

open Spec

/-- Lines typed one after the other (without the prompts). -/
def Spec.typed (w : World) (n : Nat) : List Str → M Unit
  | [] => pure ()
  | l :: ls => do
    interactiveLine w n l
    typed w n ls

/-- Lines of a script, up to its end. -/
def Spec.scripted (w : World) (n : Nat) : List Str → M Unit
  | [] => pure ()
  | l :: ls => do
    scriptLine w n l
    scripted w n ls

/-- Evaluated one after the other the lines are all accepted and none fails with an error. -/
def Spec.Errorless (w : World) (n : Nat) : List Str → Sh → Prop
  | [], _ => True
  | l :: ls, s => parse l ≠ none ∧ (∀ e, (evalText w n l s).1 ≠ .err e) ∧
    ∀ s1, interactiveLine w n l s = (.ok (), s1) → Errorless w n ls s1

theorem scriptLine_evalText (w : World) (n : Nat) {t : Str} (h : parse t ≠ none) (s : Sh) :
    scriptLine w n t s = (do let _ ← tryE (evalText w n t); pure () : M Unit) s := by
  unfold scriptLine evalText
  cases hp : parse t with
  | none => exact absurd hp h
  | some cc => rfl

theorem interactiveLine_evalText' (w : World) (n : Nat) {t : Str} (h : parse t ≠ none) (hn : t ≠ []) (s : Sh) :
    interactiveLine w n t s = (do
      match ← tryE (evalText w n t) with
      | .ok _ => pure ()
      | .error e => printlnM e : M Unit) s := by
  unfold interactiveLine evalText
  rw [if_neg hn]
  cases hp : parse t with
  | none => exact absurd hp h
  | some cc => rfl

/-- C159, the part that holds: a line that is accepted and does not fail with an error does exactly the same typed, in a
script and after `-c`.  Missing: errors (`C159_silent`, `C159_syntax`). -/
theorem C159_line_partial (w : World) (n : Nat) (s : Sh) (t : Str) (h : parse t ≠ none)
    (he : ∀ e, (evalText w n t s).1 ≠ .err e) :
    interactiveLine w n t s = scriptLine w n t s ∧ readFromArgs w n t s = scriptLine w n t s := by
  refine ⟨?_, rfl⟩
  by_cases hn : t = []
  · subst hn
    rfl
  rw [interactiveLine_evalText' w n h hn, scriptLine_evalText w n h, run_bind, run_bind, run_tryE]
  generalize evalText w n t s = r at he
  obtain ⟨o, s1⟩ := r
  cases o with
  | err e => exact absurd rfl (he e)
  | _ => rfl

/-- C159, for any number of lines: typed or in a script, they lead to the same state and end. -/
theorem C159_lines_partial (w : World) (n : Nat) (ls : List Str) (s : Sh) (h : Errorless w n ls s) :
    typed w n ls s = scripted w n ls s := by
  induction ls generalizing s with
  | nil => rfl
  | cons l ls ih =>
    obtain ⟨h1, h2, h3⟩ := h
    unfold typed scripted
    rw [run_bind, run_bind, ← (C159_line_partial w n s l h1 h2).1]
    generalize interactiveLine w n l s = r at h3
    obtain ⟨o, s1⟩ := r
    cases o with
    | ok u => exact ih s1 (h3 s1 rfl)
    | _ => rfl

/-- C159 fails for errors, always: typed, an error is reported; in a script and after `-c` it leaves no trace. -/
theorem C159_silent (w : World) (n : Nat) (s s1 : Sh) (t e : Str) (h : parse t ≠ none)
    (he : evalText w n t s = (.err e, s1)) :
    interactiveLine w n t s = printlnM e s1 ∧ scriptLine w n t s = (.ok (), s1) ∧ readFromArgs w n t s = (.ok (), s1) := by
  have hn : t ≠ [] := by
    rintro rfl
    cases he
  have hs : scriptLine w n t s = (.ok (), s1) := by
    rw [scriptLine_evalText w n h, run_bind_ok (run_tryE_err he)]
    rfl
  refine ⟨?_, hs, hs⟩
  rw [interactiveLine_evalText' w n h hn, run_bind_ok (run_tryE_err he)]

/-- C159 fails for syntax errors, always: typed, it is reported and the shell goes on (C15); in a script and after `-c`
the shell crashes. -/
theorem C159_syntax (w : World) (n : Nat) (s : Sh) (t : Str) (h : parse t = none) :
    (∃ s', interactiveLine w n t s = (.ok (), s')) ∧ scriptLine w n t s = (.panic .unwrap, s) ∧
    readFromArgs w n t s = (.panic .unwrap, s) := by
  have hs : scriptLine w n t s = (.panic .unwrap, s) := by
    unfold scriptLine
    rw [h]
    rfl
  refine ⟨?_, hs, hs⟩
  unfold interactiveLine
  rw [if_neg (by rintro rfl; revert h; decide), h]
  exact ⟨_, rfl⟩

/-- The hypotheses are met: lines without errors, one with an error, and one with a syntax error. -/
example : (∀ l ∈ [cs!"cd /tmp", cs!"ls | wc", cs!"A=1", cs!"cd", cs!"a; | b"], parse l = none ↔ l = cs!"a; | b") ∧
    outcome (evalText (demoWorld []) 20 (cs!"cd /tmp") (demoShell [])).1 = .ok ∧
    outcome (evalText (demoWorld []) 20 (cs!"fg %9") (demoShell [])).1 = .err := by
  decide +kernel

/-- Lines to which `C159_lines_partial` applies, one after the other. -/
example : Errorless (demoWorld []) 20 [cs!"cd /tmp", cs!"cd / && A=1"] (demoShell []) := by
  have key : ∀ {r : Out Int × Sh}, outcome r.1 = .ok → ∀ e, r.1 ≠ .err e := by
    intro r h e he
    rw [he] at h
    cases h
  refine ⟨by decide +kernel, key (by decide +kernel), fun s1 h => ⟨by decide +kernel, ?_, fun _ _ => trivial⟩⟩
  have h1 : s1 = (interactiveLine (demoWorld []) 20 (cs!"cd /tmp") (demoShell [])).2 := by rw [h]
  subst h1
  exact key (by decide +kernel)

end Rsh
