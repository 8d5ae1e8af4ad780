import Verif.Spec.FuncOps
import Verif.Proofs.Context

/-!
# Property C118: read-only functions
-/

namespace Rsh

open Spec

/-- The context `c` is as the state of the name says. -/
def FuncStands (c : Ctx) (n : Str) : FuncState → Prop
  | .absent => c.getFunction n = none ∧ n ∉ c.roFuncs
  | .defined b => c.getFunction n = some b ∧ n ∉ c.roFuncs
  | .readonly _ => c.getFunction n = none ∧ n ∈ c.roFuncs

theorem FuncStands.step {c : Ctx} {n : Str} {st : FuncState} (h : FuncStands c n st) (o : FuncOp) :
    FuncStands (o.run c).1 n (st.step n o) := by
  cases o with
  | define name body =>
    simp only [FuncOp.run, Ctx.addFunction, FuncState.step]
    by_cases e : name = n
    · subst e
      cases st with
      | absent => simp [h.2, FuncStands, Ctx.getFunction, AMap.get_insert]
      | defined b => simp [h.2, FuncStands, Ctx.getFunction, AMap.get_insert]
      | readonly b => simpa [h.2, FuncStands] using h
    · rw [if_neg e]
      by_cases hc : c.roFuncs.contains name
      · rw [if_pos hc]; exact h
      · rw [if_neg hc]
        have hg : ({ c with funcs := c.funcs.insert name body } : Ctx).getFunction n = c.getFunction n := by
          simp [Ctx.getFunction, AMap.get_insert, Ne.symm e]
        cases st <;> exact ⟨hg.trans h.1, h.2⟩
  | remove name =>
    simp only [FuncOp.run, Ctx.removeFunction, FuncState.step]
    by_cases e : name = n
    · subst e
      simp [FuncStands, Ctx.getFunction, AMap.get_erase]
    · rw [if_neg e]
      have hg : (c.removeFunction name).getFunction n = c.getFunction n := by
        simp [Ctx.removeFunction, Ctx.getFunction, AMap.get_erase, Ne.symm e]
      have hr : n ∈ (c.removeFunction name).roFuncs ↔ n ∈ c.roFuncs := by
        simp [Ctx.removeFunction, Ne.symm e]
      cases st
      · exact ⟨hg.trans h.1, fun x => h.2 (hr.1 x)⟩
      · exact ⟨hg.trans h.1, fun x => h.2 (hr.1 x)⟩
      · exact ⟨hg.trans h.1, hr.2 h.2⟩
  | protect name =>
    simp only [FuncOp.run, Ctx.makeReadonlyFunc, FuncState.step]
    by_cases e : name = n
    · subst e
      cases st with
      | absent =>
        have hfun : c.funcs.get name = none := h.1
        simpa [hfun] using h
      | defined b =>
        have hfun : c.funcs.get name = some b := h.1
        simp [hfun, FuncStands, Ctx.getFunction, AMap.get_erase]
      | readonly b =>
        have hfun : c.funcs.get name = none := h.1
        simpa [hfun] using h
    · rw [if_neg e]
      split
      · have hg : ({ c with funcs := c.funcs.erase name, roFuncs := name :: c.roFuncs.filter (· ≠ name) } : Ctx).getFunction n =
            c.getFunction n := by
          simp [Ctx.getFunction, AMap.get_erase, Ne.symm e]
        have hr : n ∈ name :: c.roFuncs.filter (· ≠ name) ↔ n ∈ c.roFuncs := by
          simp [Ne.symm e]
        cases st
        · exact ⟨hg.trans h.1, fun x => h.2 (hr.1 x)⟩
        · exact ⟨hg.trans h.1, fun x => h.2 (hr.1 x)⟩
        · exact ⟨hg.trans h.1, hr.2 h.2⟩
      · exact h

theorem funcStands (os : List FuncOp) (n : Str) : FuncStands (runFuncOps {} os) n (funcState n os) := by
  suffices h : ∀ c st, FuncStands c n st → FuncStands (runFuncOps c os) n (os.foldl (FuncState.step n) st) from
    h {} .absent ⟨rfl, List.not_mem_nil⟩
  induction os with
  | nil => intro c st h; exact h
  | cons o os ih => intro c st h; exact ih _ _ (h.step o)

/-- C118, as far as it holds: after any sequence of operations on a new context, a function that is not read-only is
found with the body it was given last, one that was never defined or was removed is not found, and an attempt to
define a function is refused exactly when it is read-only.  (What is missing: a read-only function is found.) -/
theorem C118_functions_partial (os : List FuncOp) (n : Str) :
    (∀ b, funcState n os = .defined b → (runFuncOps {} os).getFunction n = some b) ∧
    (funcState n os = .absent → (runFuncOps {} os).getFunction n = none) ∧
    ∀ body, ((FuncOp.define n body).run (runFuncOps {} os)).2 = true ↔ ∃ b, funcState n os = .readonly b := by
  have h := funcStands os n
  refine ⟨fun b e => ?_, fun e => ?_, fun body => ?_⟩
  · rw [e] at h; exact h.1
  · rw [e] at h; exact h.1
  · unfold FuncOp.run Ctx.addFunction
    cases hs : funcState n os with
    | absent => rw [hs] at h; simp [h.2]
    | defined b => rw [hs] at h; simp [h.2]
    | readonly b => rw [hs] at h; simp [h.2]

/-- C118 fails, always: a function that is made read-only cannot be found any more. -/
theorem C118_lost (os : List FuncOp) (n : Str) (b : FunctionBody) (h : funcState n os = .readonly b) :
    (runFuncOps {} os).getFunction n = none := by
  have := funcStands os n
  rw [h] at this
  exact this.1

/-- `f` is defined, made read-only and defined again; `g` is defined, removed and defined again. -/
def demoFuncs (b1 b2 : FunctionBody) : List FuncOp :=
  [.define (cs!"f") b1, .define (cs!"g") b1, .protect (cs!"f"), .define (cs!"f") b2, .remove (cs!"g"), .protect (cs!"g"),
    .define (cs!"g") b2]

example (b1 b2 : FunctionBody) : funcState (cs!"f") (demoFuncs b1 b2) = .readonly b1 ∧
    funcState (cs!"g") (demoFuncs b1 b2) = .defined b2 ∧ funcState (cs!"h") (demoFuncs b1 b2) = .absent :=
  ⟨rfl, rfl, rfl⟩

end Rsh
