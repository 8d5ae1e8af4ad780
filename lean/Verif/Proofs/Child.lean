import Verif.Proofs.Frames

/-!
# What forked children do
-/

namespace Rsh

/-! ## Code that does not need the nesting budget -/

/-- Started in a state satisfying `I`, `m` does not run out of nesting budget, and returns in a state
satisfying `I`. -/
def Flat (I : Sh → Prop) (m : M α) : Prop :=
  ∀ s, I s → match m s with
    | (.ok _, s') => I s'
    | (.err _, s') => I s'
    | (.deep, _) => False
    | _ => True

namespace Flat

variable {I : Sh → Prop}

theorem bind {m : M α} {f : α → M β} (hm : Flat I m) (hf : ∀ a, Flat I (f a)) : Flat I (m >>= f) := by
  intro s hs
  have h := hm s hs
  rw [run_bind]
  rcases e : m s with ⟨o, s1⟩
  rw [e] at h
  cases o with
  | ok a => exact hf a s1 h
  | _ => exact h

theorem bindAt {m : M α} {f : α → M β} (hm : Flat I m)
    (hf : ∀ a s s', m s = (.ok a, s') → I s' → match f a s' with
    | (.ok _, s') => I s'
    | (.err _, s') => I s'
    | (.deep, _) => False
    | _ => True) : Flat I (m >>= f) := by
  intro s hs
  have h := hm s hs
  rw [run_bind]
  rcases e : m s with ⟨o, s1⟩
  rw [e] at h
  cases o with
  | ok a => exact hf a s s1 e h
  | _ => exact h

theorem pure (a : α) : Flat I (Pure.pure a : M α) := fun _ h => h
theorem getS : Flat I Rsh.getS := fun _ h => h
theorem throwE (e : Str) : Flat I (Rsh.throwE e : M α) := fun _ h => h
theorem panicM (k : PanicKind) : Flat I (Rsh.panicM k : M α) := fun _ _ => trivial
theorem exitM (c : Int) : Flat I (Rsh.exitM c : M α) := fun _ _ => trivial
theorem execM (i : ExecImage) : Flat I (Rsh.execM i : M α) := fun _ _ => trivial
theorem modS {f : Sh → Sh} (h : ∀ s, I s → I (f s)) : Flat I (Rsh.modS f) := h
theorem ite {c : Prop} [Decidable c] {a b : M α} (ha : Flat I a) (hb : Flat I b) :
    Flat I (if c then a else b) := by split <;> assumption
theorem unwrapM (k : PanicKind) (o : Option α) : Flat I (Rsh.unwrapM k o) := by
  cases o with
  | none => exact panicM k
  | some a => exact pure a
theorem tryE {m : M α} (h : Flat I m) : Flat I (Rsh.tryE m) := by
  intro s hs
  have h1 := h s hs
  rw [run_tryE]
  rcases e : m s with ⟨o, s1⟩
  rw [e] at h1
  cases o <;> exact h1

end Flat

/-- Only the functions and variables are looked at. -/
def OfCtx (I : Sh → Prop) : Prop := ∀ s s' : Sh, s'.ctx = s.ctx → I s → I s'

namespace OfCtx

variable {I : Sh → Prop} (hI : OfCtx I) {w : World}
include hI

theorem closeU (fd : Int) : Flat I (Rsh.closeU fd) := by
  refine Flat.bind (m := closeM fd) ?_ fun b => .ite (.pure _) (.panicM _)
  intro s hs
  unfold closeM
  by_cases h : s.fds.has fd = true
  · simp only [h, if_true]; exact hI s _ rfl hs
  · simp only [h]; exact hs

theorem dup2U (a b : Int) : Flat I (Rsh.dup2U a b) := by
  intro s hs
  unfold Rsh.dup2U
  rcases h : s.fds.get a with _ | e
  · trivial
  · by_cases hab : a = b
    · simp only [hab, if_true]; exact hs
    · simp only [hab, if_false]; exact hI s _ rfl hs

theorem openU (ty : RedirectType) (p : Str) : Flat I (Rsh.openU w ty p) := by
  intro s hs
  unfold Rsh.openU
  by_cases h : w.openOk s.trace ty p = true
  · simp only [h, if_true]; exact hI s _ rfl hs
  · simp only [h]; trivial

theorem setEnv (k v : Str) : Flat I (Rsh.setEnv k v) := by
  intro s hs
  unfold Rsh.setEnv
  by_cases h : k = [] ∨ hasChar '=' k = true ∨ hasChar '\x00' k = true ∨ hasChar '\x00' v = true
  · simp only [h, if_true]
  · simp only [h, if_false]; exact hI s _ rfl hs

theorem evalRedirects (rs : List IoRedirect) : Flat I (Rsh.evalRedirects w rs) := by
  induction rs with
  | nil => exact .pure _
  | cons r rs ih =>
    refine Flat.bind ?_ fun _ => ih
    unfold evalRedirect1
    split
    · exact .pure _
    · split
      · exact .pure _
      · exact .bind (hI.openU _ _) fun _ => hI.dup2U _ _

theorem evalAssignments (as : List Str) : Flat I (Rsh.evalAssignments as) := by
  induction as with
  | nil => exact .pure _
  | cons a as ih =>
    unfold Rsh.evalAssignments
    dsimp only
    split
    · exact .bind (hI.setEnv _ _) fun _ => ih
    · exact .bind (.panicM _) fun _ => ih

theorem evalPrefixSuffix (c : SimpleCommand) : Flat I (Rsh.evalPrefixSuffix w c) := by
  unfold Rsh.evalPrefixSuffix
  have h : Flat I (match c.suffix with
      | some sf => Rsh.evalRedirects w sf.ioRedirect
      | none => Pure.pure ()) := by
    split
    · exact hI.evalRedirects _
    · exact .pure _
  dsimp only
  split
  · exact .bind (hI.evalRedirects _) fun _ => .bind (hI.evalAssignments _) fun _ => h
  · exact h

theorem tempExecve (a : Str) (argv : List Str) (env : AMap Str) : Flat I (Rsh.tempExecve w a argv env) := by
  unfold Rsh.tempExecve lookupCommandM
  refine .bind (.modS fun s h => hI s _ rfl h) fun _ => .bind (.bind .getS fun _ => .unwrapM _ _) fun o => ?_
  split
  · exact .throwE _
  · exact .ite (.panicM _) (.bind .getS fun _ => .ite (.execM _) (.throwE _))

end OfCtx

/-- The child of an external command needs no nesting budget. -/
theorem pipelineChild_external (w : World) (rec : List AndOr → M Int) (b : Bool) (id : Nat)
    (pip : Int × Int) (prev : Int) (p : Process) (c : SimpleCommand) (s : Sh)
    (hf : s.ctx.isFunction c.name = false) :
    (pipelineChild w rec b id pip prev p c s).1 ≠ .deep := by
  have hI : OfCtx fun s => s.ctx.isFunction c.name = false := fun s s' e h => by
    show s'.ctx.isFunction c.name = false
    rw [e]; exact h
  have key : Flat (fun s => s.ctx.isFunction c.name = false) (pipelineChild w rec b id pip prev p c) := by
    unfold pipelineChild
    refine .bind (.modS fun s h => h) fun _ => ?_
    dsimp only
    have h4 : Flat (fun s => s.ctx.isFunction c.name = false) (do
        Rsh.evalPrefixSuffix w c
        let s ← getS
        if s.ctx.isFunction c.name then do
          callFunction rec c
          exitM 0
        else do
          match ← tryE (do
              let s ← getS
              Rsh.tempExecve w p.argv0 p.argv s.env) with
          | .ok _ => panicM .explicit
          | .error _ => do
            eprintlnM (p.cmd ++ cs!": Command not found\n")
            exitM 1 : M Unit) := by
      refine .bind (hI.evalPrefixSuffix c) fun _ => ?_
      intro s hs
      rw [run_getS_bind, if_neg (by rw [hs]; simp)]
      refine Flat.bind (I := fun s => s.ctx.isFunction c.name = false) (.tryE (.bind .getS fun s => hI.tempExecve _ _ _)) (fun r => ?_) s hs
      split
      · exact .panicM _
      · exact .bind (.modS fun s h => hI s _ rfl h) fun _ => .exitM _
    have h3 : ∀ {m : M Unit}, Flat (fun s => s.ctx.isFunction c.name = false) m →
        Flat (fun s => s.ctx.isFunction c.name = false) (if 1 < pip.2 then do
          dup2U pip.2 1
          closeU pip.2
          m else m) := fun hm => .ite (.bind (hI.dup2U _ _) fun _ => .bind (hI.closeU _) fun _ => hm) hm
    have h2 : ∀ {m : M Unit}, Flat (fun s => s.ctx.isFunction c.name = false) m →
        Flat (fun s => s.ctx.isFunction c.name = false) (if 0 < prev then do
          dup2U prev 0
          closeU prev
          m else m) := fun hm => .ite (.bind (hI.dup2U _ _) fun _ => .bind (hI.closeU _) fun _ => hm) hm
    have h1 : ∀ {m : M Unit}, Flat (fun s => s.ctx.isFunction c.name = false) m →
        Flat (fun s => s.ctx.isFunction c.name = false) (if 0 ≤ pip.2 then do
          closeU pip.1
          m else m) := fun hm => .ite (.bind (hI.closeU _) fun _ => hm) hm
    have h0 : ∀ {m : M Unit}, Flat (fun s => s.ctx.isFunction c.name = false) m →
        Flat (fun s => s.ctx.isFunction c.name = false) (if b = true then do
          modS fun s => { s with ownGroup := true }
          m else m) := fun hm => .ite (.bind (.modS fun s h => hI s _ rfl h) fun _ => hm) hm
    exact h0 (h1 (h2 (h3 h4)))
  have := key s hf
  intro e
  rcases h : pipelineChild w rec b id pip prev p c s with ⟨o, s1⟩
  rw [h] at this e
  simp only at e
  subst e
  exact this

/-- Forking an external command always yields a child. -/
theorem runChild_external (w : World) (rec : List AndOr → M Int) (b : Bool) (id : Nat)
    (pip : Int × Int) (prev : Int) (p : Process) (c : SimpleCommand) (s : Sh)
    (hf : s.ctx.isFunction c.name = false) :
    ∃ e evs, runChild w (pipelineChild w rec b id pip prev p c) s = (.ok (e, evs), s) := by
  have h := pipelineChild_external w rec b id pip prev p c (childStart w s) hf
  unfold runChild
  rcases hc : pipelineChild w rec b id pip prev p c (childStart w s) with ⟨o, s1⟩
  rw [hc] at h
  simp only
  cases o
  case deep => exact absurd rfl h
  all_goals exact ⟨_, _, rfl⟩

end Rsh
