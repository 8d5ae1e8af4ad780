import Verif.Proofs.Static

/-!
# The descriptors of the shell when the system may refuse pipes
-/

namespace Rsh

open Spec

/-- The table is the old one and in front of it reading ends of pipes, under numbers that were free. -/
inductive Leaked (B : FdTable) : FdTable → Prop where
  | same : Leaked B B
  | pipe {t : FdTable} {fd : Int} (k : Nat) : Leaked B t → 3 ≤ fd → t.has fd = false →
    Leaked B ((fd, ⟨.pipeR k, false⟩) :: t)

namespace Leaked

variable {A B C : FdTable}

theorem trans (h1 : Leaked A B) (h2 : Leaked B C) : Leaked A C := by
  induction h2 with
  | same => exact h1
  | pipe k _ h3 hf ih => exact .pipe k ih h3 hf

theorem get (h : Leaked A B) {fd : Int} (hfd : fd < 3) : B.get fd = A.get fd := by
  induction h with
  | same => rfl
  | pipe k _ h3 _ ih => rw [get_cons, if_neg (by omega), ih]

theorem has (h : Leaked A B) {fd : Int} (hfd : fd < 3) : B.has fd = A.has fd := by
  unfold FdTable.has
  rw [h.get hfd]

theorem std (h : Leaked A B) (hs : StdFds A) : StdFds B :=
  ⟨fun i hi => by rw [h.has (by omega)]; exact hs.std i hi, by rw [h.has (by omega)]; exact hs.neg⟩

theorem uniq (h : Leaked A B) (hu : Uniq A) : Uniq B := by
  induction h with
  | same => exact hu
  | @pipe t fd k _ _ hf ih =>
    refine List.nodup_cons.2 ⟨fun hm => ?_, ih⟩
    have hn := not_has_get hf
    obtain ⟨q, hq, e⟩ := List.mem_map.1 hm
    have := List.lookup_eq_none_iff.1 hn q hq
    rw [e] at this
    simp at this

/-- What is at a descriptor: what was there, or the reading end of a pipe. -/
theorem get_or (h : Leaked A B) (fd : Int) : B.get fd = A.get fd ∨
    (A.get fd = none ∧ 3 ≤ fd ∧ ∃ k, B.get fd = some ⟨.pipeR k, false⟩) := by
  induction h with
  | same => exact .inl rfl
  | @pipe t fd' k _ h3 hf ih =>
    rw [get_cons]
    by_cases e : fd = fd'
    · subst e
      rw [if_pos rfl]
      refine .inr ⟨?_, h3, k, rfl⟩
      have hn := not_has_get hf
      rcases ih with ih | ⟨ih, -⟩
      · rw [← ih, hn]
      · exact ih
    · rw [if_neg e]
      exact ih

end Leaked

/-- The descriptors after a computation that may fail but goes on. -/
def LeaksAfter (B : FdTable) (r : Out α × Sh) : Prop :=
  match r.1 with
  | .ok _ => r.2.fds = B
  | .err _ => Leaked B r.2.fds
  | _ => True

/-- The fork loop leaves at most the reading end of a pipe open, and none if it succeeds. -/
theorem forkLoop_leaks (w : World) (rec : List AndOr → M Int) (b : Bool) (id total : Nat)
    {B : FdTable} (std : StdFds B) :
    ∀ (procs : List (Process × SimpleCommand)) (count : Nat) (src : Option (Int × Nat))
      (pip : Int × Int) (s : Sh), s.fds = stageFds B src none → (procs = [] → src = none) →
      StageOk B src none → total = count + procs.length →
    LeaksAfter B (forkLoop w rec b id total procs count pip ((src.map Prod.fst).getD (-1)) s) := by
  intro procs
  induction procs with
  | nil =>
    intro count src pip s hs hnil ok htot
    rw [hnil rfl] at hs
    exact hs
  | cons q rest ih =>
    intro count src pip s hs _ ok htot
    obtain ⟨p, c⟩ := q
    cases rest with
    | nil =>
      have htot' : total = count + 1 := htot
      rw [forkLoop_last _ _ _ _ _ _ _ _ _ _ _ (by omega)]
      rcases forkStep_fds w rec b id total p c [] count (pip.1, -1) std src none ok rfl hs with h | ⟨jc, tr, h⟩
      · unfold LeaksAfter; rw [h]; trivial
      · rw [h]; rfl
    | cons q' rest' =>
      have hlen : total = count + (rest'.length + 2) := htot
      by_cases hpipe : w.pipeOk s.trace = true
      case neg =>
        have hp : pipeM w s = (.ok none, s) := by unfold pipeM; rw [if_neg hpipe]
        have e : forkLoop w rec b id total ((p, c) :: q' :: rest') count pip ((src.map Prod.fst).getD (-1)) s =
            (.err (cs!"Failed to create pipe"), s) := by
          rw [forkLoop, if_pos (by omega), run_bind_ok hp]
          rfl
        rw [e]
        show Leaked B s.fds
        rw [hs]
        cases src with
        | none => exact .same
        | some q => exact .pipe _ .same (ok.srcOk _ _ rfl).1 (ok.srcOk _ _ rfl).2
      obtain ⟨r, wr, hp, hr, hw, hne, _, _, h3⟩ := pipeM_ok (w := w) (s := s) hpipe
      have hstd : ∀ i : Nat, i < 3 → s.fds.has i = true := by
        intro i hi
        rw [hs]
        unfold stageFds
        cases src with
        | none => exact std.std i hi
        | some q =>
          simp only [List.nil_append, List.cons_append]
          rw [FdTable.has_cons, std.std i hi, Bool.or_true]
      obtain ⟨h3r, h3w⟩ := h3 hstd
      have hfree : ∀ fd, s.fds.has fd = false → B.has fd = false ∧ ∀ p k, src = some (p, k) → p ≠ fd := by
        intro fd h
        rw [hs] at h
        unfold stageFds at h
        cases src with
        | none => exact ⟨h, fun _ _ e => by cases e⟩
        | some q =>
          simp only [List.nil_append, List.cons_append] at h
          rw [FdTable.has_cons, Bool.or_eq_false_iff] at h
          refine ⟨h.2, fun p k e => ?_⟩
          cases e
          have := h.1
          simp only [decide_eq_false_iff_not] at this
          exact fun e => this e.symm
      have ok' : StageOk B src (some (r, wr, s.nextPipe)) := by
        refine ⟨ok.srcOk, fun r' wr' k' e => ?_⟩
        cases e
        exact ⟨h3r, h3w, (hfree r hr).1, (hfree wr hw).1, hne, fun p k e =>
          ⟨(hfree r hr).2 p k e, (hfree wr hw).2 p k e⟩⟩
      rw [forkLoop_pipe _ _ _ _ _ _ _ _ _ _ _ (by omega) hp]
      rcases forkStep_fds w rec b id total p c (q' :: rest') count (r, wr) (s := { s with
          fds := (wr, ⟨.pipeW s.nextPipe, false⟩) :: (r, ⟨.pipeR s.nextPipe, false⟩) :: s.fds
          nextPipe := s.nextPipe + 1 }) std src
        (some (r, wr, s.nextPipe)) ok' rfl (by
          show _ :: _ :: s.fds = _
          rw [hs]; rfl) with h | ⟨jc, tr, h⟩
      · unfold LeaksAfter; rw [h]; trivial
      · rw [h]
        refine ih (count + 1) (some (r, s.nextPipe)) (r, wr) _ rfl (fun e => by cases e)
          ⟨fun p k e => by cases e; exact ⟨h3r, (hfree r hr).1⟩, fun _ _ _ e => by cases e⟩
          (by rw [hlen, List.length_cons]; omega)

/-- Whatever is evaluated, nothing else than reading ends of pipes is left open. -/
def Leaks (s s' : Sh) : Prop := StdFds s.fds → Leaked s.fds s'.fds

namespace Leaks

theorem seq : Seq Leaks (fun _ _ => True) where
  refl _ _ := .same
  trans h1 h2 h := (h1 h).trans (h2 ((h1 h).std h))
  rq _ := trivial
  rqq _ _ := trivial

theorem same {s s' : Sh} (h : s'.fds = s.fds) : Leaks s s' := fun _ => by rw [h]; exact .same

theorem frame (w : World) : Frame w (fun _ => True) Leaks (fun _ _ => True) where
  toSeq := seq
  trace _ _ _ := same rfl
  masked _ _ := same rfl
  handlers _ := same rfl
  createJob _ _ _ _ := same rfl
  deleteJob _ _ := same rfl
  resumeJob _ _ _ := same rfl
  scan _ _ _ _ _ := same rfl
  waited _ _ _ _ := same rfl
  gotSigchld _ _ := same rfl
  exitStatus _ _ := same rfl
  subst rec x _ := fun s => by
    have h := evalSubshell_expands w rec x s
    rcases hr : evalSubshell w rec x s with ⟨o, s'⟩
    rw [hr] at h
    cases o with
    | ok a => obtain ⟨np, tr, rfl⟩ := h; exact same rfl
    | err a => obtain ⟨np, tr, rfl⟩ := h; exact same rfl
    | _ => trivial
  fork rec b id procs _ := fun s => by
    have h : StdFds s.fds → LeaksAfter s.fds (forkLoop w rec b id procs.length procs 0 (-1, -1) (-1) s) :=
      fun h => forkLoop_leaks w rec b id procs.length h procs 0 none (-1, -1) s rfl (fun _ => rfl)
        ⟨fun _ _ e => (by cases e), fun _ _ _ e => (by cases e)⟩ (by omega)
    rcases hr : forkLoop w rec b id procs.length procs 0 (-1, -1) (-1) s with ⟨o, s'⟩
    rw [hr] at h
    cases o with
    | ok a => exact fun hs => by rw [show s'.fds = s.fds from h hs]; exact .same
    | err a => exact h
    | _ => trivial
  setEnv _ _ _ := same rfl
  aliases _ _ := same rfl
  cwd _ _ _ _ := same rfl
  addVar _ _ _ _ := same rfl
  addVarPos _ _ _ _ _ := same rfl
  addFunction _ _ _ := same rfl
  removeVar _ _ := same rfl
  removeFunction _ _ := same rfl
  removeContext _ _ := same rfl
  addVarReadonly _ _ _ _ := same rfl
  setVarReadonly _ _ _ _ := same rfl
  envVar _ _ _ _ _ _ := same rfl
  envFun _ _ _ _ _ := same rfl
  nameSelf _ _ _ _ := same rfl
  func _ c h := func_of seq (fun _ _ => same rfl) h.2 c
  ctxFile _ file ns h := ctxFile_of seq (fun _ _ => same rfl) (fun _ _ _ => same rfl) h.2 file ns

end Leaks

/-- At every prompt, whatever pipes the system has refused. -/
theorem AtPrompt_leaked {w : World} {s : Sh} (h : AtPrompt w s) : Leaked stdTable s.fds := by
  obtain ⟨a, b, c, d, e, f, h⟩ := (Leaks.frame w).atPrompt (fun _ _ => .same rfl) (fun _ _ _ => .same rfl)
    (fun _ _ => .same rfl) (fun _ _ => .same rfl) (fun _ _ => .same rfl) (fun _ _ => .same rfl)
    (fun _ _ => .same rfl) h
  exact h stdTable_std

theorem AtPrompt_std {w : World} {s : Sh} (h : AtPrompt w s) : StdFds s.fds := (AtPrompt_leaked h).std stdTable_std

theorem AtPrompt_one {w : World} {s : Sh} (h : AtPrompt w s) : s.fds.get 1 = some ⟨.orig 1, false⟩ :=
  (AtPrompt_leaked h).get (by decide)

theorem AtPrompt_uniq {w : World} {s : Sh} (h : AtPrompt w s) : Uniq s.fds :=
  (AtPrompt_leaked h).uniq (by unfold Uniq; decide)

end Rsh
