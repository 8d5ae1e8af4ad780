import Verif.Spec.Announces
import Verif.Proofs.Main
import Verif.Props.Startup

/-!
# C127: starting the shell prints nothing of its own
-/

namespace Rsh

open Spec

theorem setInputArgs_ok {a : Str} {i : Nat} {s s' : Sh} (h : setInputArgs a i s = (.ok (), s')) :
    s'.trace = s.trace ∧ s'.fds = s.fds := by
  unfold setInputArgs addVarAt at h
  rw [run_getS_bind] at h
  cases hc : s.ctx.addVarPos (natStr i ++ '=' :: a) 0 with
  | none => rw [hc] at h; cases h
  | some m => rw [hc] at h; cases h; exact ⟨rfl, rfl⟩

theorem argLoop_script {ps : List Str} : ∀ {st st' : ArgState} {s s' : Sh}, st.nonInteractive = true →
    st.loadArgs = true → argLoop ps st s = (.ok st', s') →
    s'.trace = (ps.map fun a => outLine s (cs!"arg: " ++ a)).reverse ++ s.trace ∧ s'.fds = s.fds ∧
      st'.readFromArgs = st.readFromArgs := by
  induction ps with
  | nil => intro st st' s s' _ _ h; cases h; exact ⟨rfl, rfl, rfl⟩
  | cons a ps ih =>
    intro st st' s s' h1 h2 h
    have hsay : ∀ (f : Unit → M ArgState), (printlnM (cs!"arg: " ++ a) >>= f) s = f () (saidArg a s) := fun f => rfl
    cases a with
    | nil => cases h
    | cons ch a =>
      rw [argLoop, hsay] at h
      simp only [h1, h2, Bool.true_eq_false, and_false, if_false, if_true] at h
      rw [run_bind] at h
      cases hi : setInputArgs (ch :: a) st.index (saidArg (ch :: a) s) with
      | mk o s1 =>
        rw [hi] at h
        cases o with
        | ok u =>
          obtain ⟨a1, a2⟩ := setInputArgs_ok hi
          obtain ⟨b1, b2, b3⟩ := ih (s := s1)
            (st := { nonInteractive := true, readFromArgs := st.readFromArgs, loadArgs := true, index := st.index + 1, pos := st.pos + 1 })
            rfl rfl h
          refine ⟨?_, by rw [b2, a2]; rfl, b3⟩
          rw [b1, a1]
          have hout : ∀ t, outLine s1 t = outLine s t := fun t => by unfold outLine; rw [a2]; rfl
          simp only [hout, List.map_cons, List.reverse_cons, List.append_assoc]
          rfl
        | _ => cases h

theorem argLoop_told {rest : List Str} : ∀ {st st' : ArgState} {s s' : Sh}, st.nonInteractive = false →
    st.loadArgs = false → st.readFromArgs = false → st.pos ≠ 0 → argLoop rest st s = (.ok st', s') →
    s'.trace = ((readArgs rest).map fun a => outLine s (cs!"arg: " ++ a)).reverse ++ s.trace ∧ s'.fds = s.fds ∧
      (∀ ws, programWords rest = some ws → st'.readFromArgs = true ∧
        ∃ k, st'.pos = st.pos + k ∧ rest.drop (k + 1) = ws) ∧
      (programWords rest = none → st'.readFromArgs = false) := by
  induction rest with
  | nil => intro st st' s s' _ _ h3 _ h; cases h; exact ⟨rfl, rfl, (fun _ h => by cases h), fun _ => h3⟩
  | cons a rest ih =>
    intro st st' s s' h1 h2 h3 h5 h
    have hsay : ∀ (f : Unit → M ArgState), (printlnM (cs!"arg: " ++ a) >>= f) s = f () (saidArg a s) := fun f => rfl
    unfold readArgs programWords
    by_cases ho : IsOption a
    · obtain ⟨t, rfl⟩ := ho
      have hopt : IsOption ('-' :: t) := ⟨t, rfl⟩
      simp only [if_pos hopt]
      by_cases hc : 'c' ∈ '-' :: t
      · simp only [if_pos hc]
        rw [argLoop, hsay] at h
        simp only [h1, and_self, if_true, parseDashArg_eq, hc, decide_true] at h
        cases h
        exact ⟨rfl, rfl, fun ws e => ⟨rfl, 0, rfl, by cases e; rfl⟩, fun e => by cases e⟩
      · simp only [if_neg hc]
        rw [argLoop, hsay] at h
        simp only [h1, and_self, if_true, parseDashArg_eq, hc, decide_false, Bool.false_eq_true, if_false] at h
        obtain ⟨b1, b2, b3, b4⟩ := ih (s := saidArg ('-' :: t) s)
          (st := { loadArgs := st.loadArgs, index := st.index, pos := st.pos + 1 }) rfl h2 rfl
          (by simp) h
        refine ⟨?_, b2, fun ws e => ?_, b4⟩
        · rw [b1]
          simp only [List.map_cons, List.reverse_cons, List.append_assoc]
          rfl
        · obtain ⟨c1, k, c2, c3⟩ := b3 ws e
          exact ⟨c1, k + 1, by rw [c2]; show st.pos + 1 + k = _; omega, c3⟩
    · simp only [if_neg ho]
      cases a with
      | nil => cases h
      | cons ch a =>
        have hch : ch ≠ '-' := fun e => ho ⟨a, by rw [e]⟩
        rw [argLoop, hsay] at h
        simp only [hch, h1, h2, false_and, Bool.false_eq_true, if_false, h5, ne_eq, not_false_eq_true, if_true,
          false_and] at h
        obtain ⟨b1, b2, b3⟩ := argLoop_script
          (st := { st with nonInteractive := true, loadArgs := true, pos := st.pos + 1 })
          (s := { saidArg (ch :: a) s with scriptName := ch :: a, interactive := false }) rfl rfl h
        refine ⟨?_, b2, (fun _ e => by cases e), fun _ => b3.trans h3⟩
        rw [b1]
        simp only [List.map_cons, List.reverse_cons, List.append_assoc]
        rfl

/-- C127, the case in which it holds: a shell started without arguments reads them in silence and with no other
effect.  Missing: every other start (`C127_never`). -/
theorem C127_partial (w : World) (argv0 : Str) (s : Sh) : parseArgs w [argv0] s = (.ok none, s) := rfl

/-- C127 fails for every start with an argument: before it does anything else the shell writes `arg: ` and its
own name to standard output. -/
theorem C127_never (w : World) (n k : Nat) (ins : List SessionIn) (argv0 a : Str) (as : List Str) (s : Sh) :
    ∃ new, (mainM w n k (argv0 :: a :: as) ins s).2.trace = new ++ outLine s (cs!"arg: " ++ argv0) :: s.trace := by
  have T : StartSteps Grows := ⟨fun _ _ _ _ => .of_eq rfl, fun _ _ _ => .of_eq rfl, fun _ _ => .of_eq rfl,
    fun _ _ => .of_eq rfl, fun _ _ => .of_eq rfl, fun _ => .of_eq rfl, fun _ _ => .of_eq rfl, fun _ => .of_eq rfl⟩
  have F := growsFrame w
  have S := F.toSeq
  let s0 := saidArg argv0 s
  have hloop : Post Grows Grows s0 (argLoop (argv0 :: a :: as) {} s) := by
    have hsay : ∀ (f : Unit → M ArgState), (printlnM (cs!"arg: " ++ argv0) >>= f) s = f () (saidArg argv0 s) := fun f => rfl
    cases argv0 with
    | nil => exact S.refl _
    | cons ch t =>
      rw [argLoop, hsay]
      have h1 : ∀ a, Keeps Grows Grows (setScriptName a) := fun a => .modS fun s => T.script s a
      have h2 : ∀ a i, Keeps Grows Grows (setInputArgs a i) := fun a i => F.addVarAt _ _
      exact Keeps.ite (.ite (.pure S _) (F.argLoop T _ _)) (.ite (.bind S (h1 _) fun _ => F.argLoop T _ _)
        (.ite (.bind S (h2 _ _) fun _ => F.argLoop T _ _) (.ite (.bind S (h1 _) fun _ => F.argLoop T _ _)
          (F.argLoop T _ _)))) s0
  have hargs : Post Grows Grows s0 (parseArgs w (argv0 :: a :: as) s) :=
    Keeps.bindAt S (m := fun _ => argLoop (argv0 :: a :: as) {} s) hloop fun st s1 _ =>
      (Keeps.ite (.bind S (.modS fun s => T.quiet s) fun _ => .bind S (F.printlnM _) fun _ => .pure S _) (.pure S _) : Keeps Grows Grows _) s1
  obtain ⟨f, e, hf⟩ := F.mainTail (fun _ => trivial) T
    ⟨id, S.trans, fun _ loc => ⟨[.saveHistory loc], rfl⟩⟩ n k (argv0 :: a :: as) ins
  have hmain : Post Grows Grows s0 (mainM w n k (argv0 :: a :: as) ins s) := by
    rw [e]
    exact Keeps.bindAt S (m := fun _ => parseArgs w (argv0 :: a :: as) s) hargs fun i s1 _ => hf i s1
  rcases h : mainM w n k (argv0 :: a :: as) ins s with ⟨o, s1⟩
  rw [h] at hmain
  cases o <;> exact hmain

/-- C127, what is printed instead: a shell started with arguments prints `arg: ` and the argument for its own
name and each argument it reads: those up to the option with `c`, or all of them if there is no program; and
with a program, the words of the program in the form of a Rust list of strings. -/
theorem C127_said (w : World) (argv0 : Str) (rest : List Str) (s s' : Sh) (r : Option Str) (hr : rest ≠ [])
    (hopt : ¬ IsOption argv0) (h : parseArgs w (argv0 :: rest) s = (.ok r, s')) :
    s'.trace = (((argv0 :: readArgs rest).map fun a => outLine s (cs!"arg: " ++ a)) ++
      ((programWords rest).map fun ws => outLine s (w.argsMsg ws)).toList).reverse ++ s.trace := by
  have hlen : ¬ (argv0 :: rest).length = 1 := by
    cases rest with
    | nil => exact absurd rfl hr
    | cons a as => simp
  unfold parseArgs at h
  rw [if_neg hlen, run_bind] at h
  have hsay : ∀ (f : Unit → M ArgState), (printlnM (cs!"arg: " ++ argv0) >>= f) s = f () (saidArg argv0 s) := fun f => rfl
  have hself : argv0 = [] ∨ argLoop (argv0 :: rest) {} s = argLoop rest { pos := 1 } (saidArg argv0 s) := by
    cases argv0 with
    | nil => exact .inl rfl
    | cons ch a =>
      refine .inr ?_
      have hch : ch ≠ '-' := fun e => hopt ⟨a, by rw [e]⟩
      rw [argLoop, hsay]
      simp [hch]
  rcases hself with rfl | hself
  · have : argLoop ([] :: rest) {} s = (.panic .unwrap, saidArg [] s) := rfl
    rw [this] at h
    cases h
  rw [hself] at h
  cases hl : argLoop rest { pos := 1 } (saidArg argv0 s) with
  | mk o s1 =>
    rw [hl] at h
    cases o with
    | ok st' =>
      obtain ⟨b1, b2, b3, b4⟩ := argLoop_told rfl rfl rfl (by simp) hl
      have hout : ∀ t, outLine s1 t = outLine s t := fun t => by unfold outLine; rw [b2]; rfl
      have hout' : ∀ t, outLine (saidArg argv0 s) t = outLine s t := fun t => rfl
      cases hp : programWords rest with
      | none =>
        simp only [b4 hp, Bool.false_eq_true, if_false] at h
        cases h
        rw [b1]
        simp only [hout', List.map_cons, Option.map_none, Option.toList_none, List.append_nil, List.reverse_cons,
          List.append_assoc]
        rfl
      | some ws =>
        obtain ⟨c1, k, c2, c3⟩ := b3 ws hp
        simp only [c1, if_true] at h
        have hw : (argv0 :: rest).drop (st'.pos + 1) = ws := by
          rw [c2, ← c3]
          show (argv0 :: rest).drop (1 + k + 1) = _
          rw [show 1 + k + 1 = (k + 1) + 1 by omega, List.drop_succ_cons]
        rw [hw] at h
        cases h
        show outLine s1 _ :: s1.trace = _
        rw [b1, hout]
        simp only [hout', List.map_cons, Option.map_some, Option.toList_some, List.reverse_cons,
          List.append_assoc, List.reverse_append]
        rfl
    | _ => cases h

/-- `rsh -c pwd`: three lines before that of `pwd`. -/
theorem C127_counterexample :
    (mainM (demoWorld []) 10 5 [cs!"rsh", cs!"-c", cs!"pwd"] []
      (initSh false 1 2 (cs!"/") [(cs!"PATH", cs!"/bin")] [])).2.trace.reverse.filterMap (fun
        | .print _ t => some t
        | _ => none) = [cs!"arg: rsh\n", cs!"arg: -c\n", cs!"[…]\n", cs!"/\n"] := by decide +kernel

example : readArgs [cs!"-l", cs!"-c", cs!"pwd"] = [cs!"-l", cs!"-c"] ∧
    programWords [cs!"-l", cs!"-c", cs!"pwd"] = some [cs!"pwd"] ∧
    readArgs [cs!"-l", cs!"s", cs!"-c"] = [cs!"-l", cs!"s", cs!"-c"] ∧
    programWords [cs!"-l", cs!"s", cs!"-c"] = none := by decide +kernel

end Rsh
