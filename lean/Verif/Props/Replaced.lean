import Verif.Props.Unused
import Verif.Props.Substitutions

/-!
# Property C134: the outputs of substitutions
-/

namespace Rsh

open Spec

/-- In this state the word stands for that text, and afterwards the shell is in that state: a word that is no
substitution stands for itself.  For a substitution a copy of the shell evaluates the text, with its standard output and
standard error connected to a new pipe; if everything written there fits into the pipe, the word stands for it, without
the blanks around it. -/
inductive Spec.StandsFor (w : World) (n : Nat) : Sh → Str → Str → Sh → Prop where
  | plain {s t} : ¬ Substitutes t → StandsFor w n s t t s
  | ran {s : Sh} {tick text p o s1 e evs out v} : parse text = some p → evalText w n text (copyOf w s) = (o, s1) →
    CopyEnds o s1 e → s1.trace = evs.reverse ++ (copyOf w s).trace →
    Delivers w (.pipeW s.nextPipe) [.subst e evs] out → blen out ≤ w.pipeCap → Trimmed out v →
    StandsFor w n s (substitution tick text) v { s with nextPipe := s.nextPipe + 1, trace := .subst e evs :: s.trace }

/-- The same for an assignment, where the substitution is the whole value, without `=`. -/
inductive Spec.AssignStandsFor (w : World) (n : Nat) : Sh → Str → Str → Sh → Prop where
  | plain {s t} : ¬ AssignSubstitutes t → AssignStandsFor w n s t t s
  | ran {s x t v s'} : '=' ∉ x → '=' ∉ t → Substitutes t → StandsFor w n s t v s' →
    AssignStandsFor w n s (x ++ '=' :: t) (x ++ '=' :: v) s'

/-- The words of a list, one after the other. -/
inductive Spec.InTurn (r : Sh → Str → Str → Sh → Prop) : Sh → List Str → List Str → Sh → Prop where
  | nil {s} : InTurn r s [] [] s
  | cons {s t v s' ts vs s''} : r s t v s' → InTurn r s' ts vs s'' → InTurn r s (t :: ts) (v :: vs) s''

/-- What a substitution leaves of the shell as it is. -/
structure SubstReady (s : Sh) : Prop where
  fds : s.fds = stdTable
  masked : s.masked = true

theorem Spec.StandsFor.run {w : World} (hw : Resources w) (hsig : Uninterrupted w) {n : Nat} {s s' : Sh} {t v : Str}
    (h : StandsFor w n s t v s') (hs : SubstReady s) : substWord w (evalFuel w n) t s = (.ok v, s') ∧ SubstReady s' := by
  cases h with
  | plain h => exact ⟨substWord_id _ _ h _, hs⟩
  | @ran tick text p o s1 e evs out _ hp hr he ht hd hf hv =>
    have ho := arrives_outTo hd
    rw [outTo, outTo, List.append_nil] at ho
    have hx : isSubst (substitution tick text) = true := by
      rw [isSubst_iff]
      cases tick
      · exact .inl ⟨text, rfl⟩
      · exact .inr (.inl ⟨text, rfl⟩)
    have := (evalSubshell_any hw hsig tick n hp hs.fds hs.masked hr (.inl he) ht ho).1 (by cases he <;> simp) hf
    rw [trimWs_iff.2 hv] at this
    refine ⟨?_, ⟨hs.fds, hs.masked⟩⟩
    unfold substWord
    rw [if_pos hx, this]

theorem Spec.AssignStandsFor.run {w : World} (hw : Resources w) (hsig : Uninterrupted w) {n : Nat} {s s' : Sh} {t v : Str}
    (h : AssignStandsFor w n s t v s') (hs : SubstReady s) :
    substAssign w (evalFuel w n) t s = (.ok v, s') ∧ SubstReady s' := by
  cases h with
  | plain h => exact ⟨substAssign_id _ _ h _, hs⟩
  | @ran x t _ _ hx ht hsub h =>
    obtain ⟨h1, h2⟩ := h.run hw hsig hs
    refine ⟨?_, h2⟩
    unfold substWord at h1
    rw [if_pos ((isSubst_iff t).2 hsub)] at h1
    unfold substAssign
    rw [if_pos, splitOn_append _ _ _ hx, splitOn_none _ _ ht]
    · dsimp only
      rw [run_bind_ok h1]
      rfl
    · rw [Bool.or_eq_true, Bool.and_eq_true, Bool.and_eq_true, endsWith_single, endsWith_single, hasSub_iff, hasSub_iff]
      rcases hsub with ⟨y, rfl⟩ | ⟨y, rfl⟩ | rfl
      · exact .inl ⟨⟨x ++ ['='], y ++ [')'], by simp⟩, by
        rw [List.getLast?_append, List.getLast?_cons_cons, List.getLast?_cons_cons, getLast_snoc]; rfl⟩
      · exact .inr ⟨⟨x ++ ['='], y ++ ['`'], by simp⟩, by
        rw [List.getLast?_append, List.getLast?_cons_cons, getLast_snoc]; rfl⟩
      · exact .inr ⟨⟨x ++ ['='], [], by simp⟩, by simp [List.getLast?_append]⟩

theorem Spec.InTurn.run {r : Sh → Str → Str → Sh → Prop} {f : Str → M Str}
    (hf : ∀ {s t v s'}, r s t v s' → SubstReady s → f t s = (.ok v, s') ∧ SubstReady s') {s s' : Sh} {ts vs : List Str}
    (h : InTurn r s ts vs s') : SubstReady s → eachM f ts s = (.ok vs, s') ∧ SubstReady s' := by
  induction h with
  | nil => exact fun hs => ⟨rfl, hs⟩
  | cons h1 _ ih =>
    intro hs
    obtain ⟨e1, hs1⟩ := hf h1 hs
    obtain ⟨e2, hs2⟩ := ih hs1
    refine ⟨?_, hs2⟩
    unfold eachM
    rw [run_bind_ok e1, run_bind_ok e2]
    rfl

/-- **C134**, as far as it holds: each command substitution among the assignments, the name and the arguments is replaced
by its output as one word, one after the other from left to right, and everything else of the command is as before; the
shell is as before except for the copies it made.  (What is missing: a substitution in an assignment that has another `=`,
see `C134_counterexample`; output that does not fit into the pipe, see C25.) -/
theorem C134_outputs_partial (w : World) (hw : Resources w) (hsig : Uninterrupted w) (n : Nat) (s s1 s2 s3 : Sh)
    (hfds : s.fds = stdTable) (hm : s.masked = true) (c : SimpleCommand) (as : List Str) (name : Str) (ws : List Str)
    (h1 : InTurn (AssignStandsFor w n) s ((c.pre.map Prefix.assignment).getD []) as s1)
    (h2 : StandsFor w n s1 c.name name s2)
    (h3 : InTurn (StandsFor w n) s2 ((c.suffix.map Suffix.word).getD []) ws s3) :
    expandSubshells w (evalFuel w n) c s =
      (.ok { pre := c.pre.map fun p => { p with assignment := as }
             name := name
             suffix := c.suffix.map fun sf => { sf with word := ws } }, s3) := by
  obtain ⟨e1, r1⟩ := h1.run (fun h => h.run hw hsig) ⟨hfds, hm⟩
  obtain ⟨e2, r2⟩ := h2.run hw hsig r1
  obtain ⟨e3, -⟩ := h3.run (fun h => h.run hw hsig) r2
  obtain ⟨pre, nm, suffix⟩ := c
  unfold expandSubshells
  have e1' : substPrefix w (evalFuel w n) pre s = (.ok (pre.map fun p => { p with assignment := as }), s1) := by
    cases pre with
    | none => cases h1; rfl
    | some p =>
      unfold substPrefix
      dsimp only
      dsimp only [Option.map, Option.getD] at e1
      rw [run_bind_ok e1]
      rfl
  rw [run_bind_ok e1', run_bind_ok e2]
  cases suffix with
  | none => cases h3; rfl
  | some sf =>
    dsimp only
    dsimp only [Option.map, Option.getD] at e3
    rw [run_bind_ok e3]
    rfl

/-- `X=$(pwd) ls a $(pwd)`. -/
def replacedSample : SimpleCommand :=
  ⟨some ⟨[], [cs!"X=$(pwd)"]⟩, cs!"ls", some ⟨[], [cs!"a", cs!"`pwd`"]⟩⟩

/-- The hypotheses are met: both substitutions stand for `/`. -/
theorem replaced_stands (k : Nat) (tr : List Event) (tick : Bool) :
    StandsFor (demoWorld []) 20 { atPrompt [] with masked := true, nextPipe := k, trace := tr } (substitution tick (cs!"pwd"))
      (cs!"/") { atPrompt [] with
        masked := true, nextPipe := k + 1, trace := .subst (.exit 0) [.print (some (.pipeW k)) (cs!"/\n")] :: tr } := by
  rcases hq : parse (cs!"pwd") with _ | p
  · exact absurd hq (by decide +kernel)
  · exact .ran (o := .ok 0) (out := cs!"/\n") (evs := [.print (some (.pipeW k)) (cs!"/\n")])
      (s1 := { copyOf (demoWorld []) { atPrompt [] with masked := true, nextPipe := k, trace := tr } with
        trace := .print (some (.pipeW k)) (cs!"/\n") :: .born :: tr }) hq rfl .ok rfl
      (.subst (.print .nil) .exit .nil) (by decide) (trimWs_iff.1 (by decide))

example : ∃ s1 s3, InTurn (AssignStandsFor (demoWorld []) 20) { atPrompt [] with masked := true } [cs!"X=$(pwd)"] [cs!"X=/"] s1 ∧
    StandsFor (demoWorld []) 20 s1 replacedSample.name (cs!"ls") s1 ∧
    InTurn (StandsFor (demoWorld []) 20) s1 [cs!"a", cs!"`pwd`"] [cs!"a", cs!"/"] s3 := by
  have h1 : AssignStandsFor (demoWorld []) 20 { atPrompt [] with masked := true } (cs!"X=$(pwd)") (cs!"X=/") _ :=
    .ran (x := cs!"X") (t := cs!"$(pwd)") (v := cs!"/") (by decide) (by decide) (.inl ⟨cs!"pwd", rfl⟩)
      (replaced_stands (atPrompt []).nextPipe (atPrompt []).trace false)
  have nope : ∀ t : Str, isSubst t = false → ¬ Substitutes t := fun t h h' => by
    rw [← isSubst_iff, h] at h'; cases h'
  exact ⟨_, _, .cons h1 .nil, .plain (nope _ (by decide)),
    .cons (.plain (nope _ (by decide))) (.cons (replaced_stands _ _ true) .nil)⟩

end Rsh
