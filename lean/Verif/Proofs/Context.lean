import Verif.Proofs.Str
import Verif.Proofs.Monad

/-!
# Lemmas about the context manager
-/

namespace Rsh

open Spec

namespace CtxMgr

theorem getVar_unqualified (m : CtxMgr) {x : Str} (h : Unqualified x) :
    m.getVar x = m.stack.findSome? (varIn m x) := by
  unfold getVar
  rw [splitNs_unqualified h]
  rfl

theorem getFunction_unqualified (m : CtxMgr) {x : Str} (h : Unqualified x) :
    m.getFunction x = m.stack.findSome? (funcIn m x) := by
  unfold getFunction
  rw [splitNs_unqualified h]
  rfl

theorem getVar_qualified (m : CtxMgr) {ns x : Str} (h : Unqualified (ns ++ [':']))
    (hx : Unqualified x) :
    m.getVar (ns ++ ':' :: ':' :: x) = (m.exported.lookup ns).bind (varIn m x) := by
  unfold getVar
  rw [splitNs_append h hx]
  rfl

theorem getFunction_qualified (m : CtxMgr) {ns x : Str} (h : Unqualified (ns ++ [':']))
    (hx : Unqualified x) :
    m.getFunction (ns ++ ':' :: ':' :: x) = (m.exported.lookup ns).bind (funcIn m x) := by
  unfold getFunction
  rw [splitNs_append h hx]
  rfl

/-- Any name is looked up either on the stack or in one exported context. -/
theorem getVar_cases (m : CtxMgr) (x : Str) :
    (splitNs x = none ∧ m.getVar x = m.stack.findSome? (varIn m x)) ∨
    (∃ ns y, splitNs x = some (ns, y) ∧ m.getVar x = (m.exported.lookup ns).bind (varIn m y)) := by
  unfold getVar
  cases h : splitNs x with
  | none => exact .inl ⟨rfl, rfl⟩
  | some p => exact .inr ⟨p.1, p.2, rfl, rfl⟩

theorem innermost_findSome (has : Nat → Option α) (stack : List Nat) :
    Innermost has stack (stack.findSome? has) := by
  cases h : stack.findSome? has with
  | none =>
    rw [List.findSome?_eq_none_iff] at h
    exact h
  | some v =>
    rw [List.findSome?_eq_some_iff] at h
    obtain ⟨pre, id, post, e, hv, hn⟩ := h
    exact ⟨pre, id, post, e, hn, hv⟩

theorem innermost_unique {has : Nat → Option α} {stack : List Nat} {o : Option α}
    (h : Innermost has stack o) : stack.findSome? has = o := by
  cases o with
  | none => rw [List.findSome?_eq_none_iff]; exact h
  | some v =>
    obtain ⟨pre, id, post, e, hn, hv⟩ := h
    rw [List.findSome?_eq_some_iff]
    exact ⟨pre, id, post, e, hv, hn⟩

/-- `findCtx` and `findSome?` agree. -/
theorem findCtx_var (m : CtxMgr) (x : Str) :
    m.stack.findSome? (varIn m x) =
      (m.findCtx (fun c => (c.getVar x).isSome)).bind (varIn m x) := by
  unfold findCtx
  generalize m.stack = l
  induction l with
  | nil => rfl
  | cons i l ih =>
    rw [List.findSome?_cons, List.find?_cons]
    simp only [] at ih ⊢
    have e : ((m.heap i).getVar x) = varIn m x i := rfl
    rw [e]
    cases h : varIn m x i with
    | none => simp only [Option.isSome_none]; exact ih
    | some v => simp [h]

theorem findCtx_func (m : CtxMgr) (x : Str) :
    m.stack.findSome? (funcIn m x) =
      (m.findCtx (fun c => (c.getFunction x).isSome)).bind (funcIn m x) := by
  unfold findCtx
  generalize m.stack = l
  induction l with
  | nil => rfl
  | cons i l ih =>
    rw [List.findSome?_cons, List.find?_cons]
    simp only [] at ih ⊢
    have e : ((m.heap i).getFunction x) = funcIn m x i := rfl
    rw [e]
    cases h : funcIn m x i with
    | none => simp only [Option.isSome_none]; exact ih
    | some v => simp [h]

/-- The context found, with the ones inside it. -/
theorem findCtx_some {m : CtxMgr} {p : Ctx → Bool} {id : Nat} (h : m.findCtx p = some id) :
    p (m.heap id) = true ∧ ∃ pre post, m.stack = pre ++ id :: post ∧
      ∀ i ∈ pre, p (m.heap i) = false := by
  unfold findCtx at h
  rw [List.find?_eq_some_iff_append] at h
  obtain ⟨h1, pre, post, e, h2⟩ := h
  exact ⟨h1, pre, post, e, fun i hi => by simpa using h2 i hi⟩

theorem findCtx_none {m : CtxMgr} {p : Ctx → Bool} (h : m.findCtx p = none) :
    ∀ i ∈ m.stack, p (m.heap i) = false := by
  unfold findCtx at h
  rw [List.find?_eq_none] at h
  exact fun i hi => by simpa using h i hi

@[simp] theorem setCtx_stack (m : CtxMgr) (id : Nat) (c : Ctx) : (m.setCtx id c).stack = m.stack := rfl
@[simp] theorem setCtx_exported (m : CtxMgr) (id : Nat) (c : Ctx) :
    (m.setCtx id c).exported = m.exported := rfl
@[simp] theorem setCtx_next (m : CtxMgr) (id : Nat) (c : Ctx) : (m.setCtx id c).next = m.next := rfl
@[simp] theorem setCtx_heap (m : CtxMgr) (id i : Nat) (c : Ctx) :
    (m.setCtx id c).heap i = if i = id then c else m.heap i := rfl

theorem varIn_setVar (m : CtxMgr) (t : Nat) (x y : Str) (v : Var) (i : Nat) :
    varIn (m.setCtx t ((m.heap t).addVarStruct x v)) y i
      = if i = t ∧ y = x then some v else varIn m y i := by
  unfold varIn
  rw [setCtx_heap]
  by_cases h : i = t
  · subst h
    simp only [if_true, Ctx.addVarStruct]
    have := AMap.get_insert (m.heap i).vars y x v
    unfold AMap.get at this
    rw [this]
    by_cases hy : y = x <;> simp [hy]
  · simp [h]

theorem funcIn_setVar (m : CtxMgr) (t : Nat) (x y : Str) (v : Var) (i : Nat) :
    funcIn (m.setCtx t ((m.heap t).addVarStruct x v)) y i = funcIn m y i := by
  unfold funcIn
  rw [setCtx_heap]
  by_cases h : i = t
  · subst h; simp [Ctx.addVarStruct]
  · simp [h]

theorem keyOk_name {x : Str} (h : Name x) (v : Str) : keyOk (x ++ v) = true := by
  obtain ⟨h1, _, _, h4⟩ := h
  cases x with
  | nil => exact absurd rfl h1
  | cons c x =>
    simp only [List.head?_cons, Option.all_some] at h4
    simp only [List.cons_append, keyOk]
    rw [if_neg (by simpa using h4)]

theorem addSet_eq {c : Ctx} {x v u : Str} (hx : '=' ∉ x) (hk : keyOk (x ++ '=' :: v) = true)
    (hv : '=' ∉ v) (hu : Unquoted v u) (hl : ¬ LoneQuote v) :
    c.addSet (x ++ '=' :: v) = some (c.addVarStruct x { value := u }) := by
  unfold Ctx.addSet
  rw [splitSet_eq _ _ hx, takeWhile_none hv]
  simp only [hk, if_true]
  rw [trimQuotes_unquoted hu hl]

theorem addSetReadonly_eq {c : Ctx} {x v u : Str} (hx : '=' ∉ x) (hk : keyOk (x ++ '=' :: v) = true)
    (hv : '=' ∉ v) (hu : Unquoted v u) (hl : ¬ LoneQuote v) :
    c.addSetReadonly (x ++ '=' :: v) = some (c.addVarStruct x { value := u, readonly := true }) := by
  unfold Ctx.addSetReadonly
  rw [splitSet_eq _ _ hx, takeWhile_none hv]
  simp only [hk, if_true]
  rw [trimQuotes_unquoted hu hl]

/-- The context an assignment to `x` goes to. -/
def target (m : CtxMgr) (x : Str) : Option Nat :=
  match m.findCtx (fun c => (c.getVar x).isSome) with
  | some id => some id
  | none => m.current

/-- What an accepted assignment does. -/
theorem addVar_eq {m : CtxMgr} {x v : Str} (hx : '=' ∉ x)
    (hro : ∀ b, m.stack.findSome? (varIn m x) = some b → b.readonly = false) :
    m.addVar (x ++ '=' :: v) =
      (m.target x).bind fun t => ((m.heap t).addSet (x ++ '=' :: v)).map (m.setCtx t) := by
  unfold addVar target
  rw [setName_eq _ _ hx]
  rw [findCtx_var] at hro
  cases h : m.findCtx (fun c => (c.getVar x).isSome) with
  | none => simp only [h]
  | some id =>
    obtain ⟨h1, _⟩ := findCtx_some h
    simp only [h, Option.bind_some] at hro
    cases hb : (m.heap id).getVar x with
    | none => rw [hb] at h1; cases h1
    | some b => simp [hro b hb, hb, h]

theorem target_spec {m : CtxMgr} {x : Str} (hs : m.stack ≠ []) : ∃ t, m.target x = some t ∧
    ∃ pre post, m.stack = pre ++ t :: post ∧ (∀ i ∈ pre, varIn m x i = none) ∧
      ((varIn m x t).isSome = true ∨ (pre = [] ∧ ∀ i ∈ m.stack, varIn m x i = none)) := by
  unfold target
  cases h : m.findCtx (fun c => (c.getVar x).isSome) with
  | some id =>
    obtain ⟨h1, pre, post, e, hn⟩ := findCtx_some h
    refine ⟨id, rfl, pre, post, e, fun i hi => ?_, .inl h1⟩
    have := hn i hi
    rw [Option.isSome_eq_false_iff, Option.isNone_iff_eq_none] at this
    exact this
  | none =>
    have hn := findCtx_none h
    have hn' : ∀ i ∈ m.stack, varIn m x i = none := fun i hi => by
      have := hn i hi
      rw [Option.isSome_eq_false_iff, Option.isNone_iff_eq_none] at this
      exact this
    cases hst : m.stack with
    | nil => exact absurd hst hs
    | cons t l =>
      refine ⟨t, by simp [current, hst], [], l, rfl, by simp, .inr ⟨rfl, ?_⟩⟩
      rw [← hst]; exact hn'

/-- An accepted assignment, for any name and whatever value the text stands for. -/
theorem assign_to (m : CtxMgr) (x v u : Str) (hx2 : '=' ∉ x) (hxu : Unqualified x)
    (hset : ∀ c : Ctx, c.addSet (x ++ '=' :: v) = some (c.addVarStruct x { value := u })) (hs : m.stack ≠ [])
    (hro : ∀ b, m.getVar x = some b → b.readonly = false) :
    ∃ m' t pre post, m.addVar (x ++ '=' :: v) = some m' ∧
      m.stack = pre ++ t :: post ∧ (∀ i ∈ pre, varIn m x i = none) ∧
      ((varIn m x t).isSome = true ∨ (pre = [] ∧ ∀ i ∈ m.stack, varIn m x i = none)) ∧
      m'.stack = m.stack ∧ m'.exported = m.exported ∧ m'.next = m.next ∧
      (∀ i y, varIn m' y i = if i = t ∧ y = x then some { value := u } else varIn m y i) ∧
      (∀ i y, funcIn m' y i = funcIn m y i) ∧
      m'.getVar x = some { value := u } ∧
      (∀ y, Unqualified y → y ≠ x → m'.getVar y = m.getVar y) ∧
      (∀ ns y, Unqualified (ns ++ [':']) → Unqualified y → (y ≠ x ∨ m.exported.lookup ns ≠ some t) →
        m'.getVar (ns ++ ':' :: ':' :: y) = m.getVar (ns ++ ':' :: ':' :: y)) ∧
      (∀ f, m'.getFunction f = m.getFunction f) := by
  have hro' : ∀ b, m.stack.findSome? (varIn m x) = some b → b.readonly = false := by
    rw [← getVar_unqualified m hxu]; exact hro
  obtain ⟨t, ht, pre, post, hst, hpre, htt⟩ := target_spec (x := x) hs
  have hadd := addVar_eq (v := v) hx2 hro'
  rw [ht, Option.bind_some, hset, Option.map_some] at hadd
  have hvar := fun i y => varIn_setVar m t x y { value := u } i
  have hfun := fun i y => funcIn_setVar m t x y { value := u } i
  refine ⟨_, t, pre, post, hadd, hst, hpre, htt, rfl, rfl, rfl, hvar, hfun, ?_, ?_, ?_, ?_⟩
  · rw [getVar_unqualified _ hxu]
    apply innermost_unique
    refine ⟨pre, t, post, hst, fun i hi => ?_, by simp [hvar]⟩
    rw [hvar]
    by_cases hit : i = t
    · subst hit
      rcases htt with h | ⟨rfl, _⟩
      · rw [hpre i hi] at h; cases h
      · simp at hi
    · simp [hit, hpre i hi]
  · intro y hy hne
    rw [getVar_unqualified _ hy, getVar_unqualified _ hy]
    have : varIn (m.setCtx t ((m.heap t).addVarStruct x { value := u })) y = varIn m y := by
      funext i; rw [hvar]; simp [hne]
    rw [this]; rfl
  · intro ns y hns hy hor
    rw [getVar_qualified _ hns hy, getVar_qualified _ hns hy]
    show (m.exported.lookup ns).bind _ = _
    cases hb : m.exported.lookup ns with
    | none => rfl
    | some id =>
      rw [Option.bind_some, Option.bind_some, hvar, if_neg]
      rintro ⟨rfl, rfl⟩
      rcases hor with h | h
      · exact h rfl
      · exact h hb
  · intro f
    have : ∀ g, funcIn (m.setCtx t ((m.heap t).addVarStruct x { value := u })) g = funcIn m g := by
      intro g; funext i; exact hfun i g
    unfold getFunction
    cases splitNs f with
    | none => exact congrArg (fun g => m.stack.findSome? g) (this f)
    | some p =>
      show (m.exported.lookup p.1).bind (funcIn _ p.2) = (m.exported.lookup p.1).bind (funcIn _ p.2)
      rw [this]

/-- An accepted assignment, for any name. -/
theorem assign_spec (m : CtxMgr) (x v u : Str) (hx2 : '=' ∉ x)
    (hxu : Unqualified x) (hk : keyOk (x ++ '=' :: v) = true) (hv : '=' ∉ v) (hu : Unquoted v u)
    (hl : ¬ LoneQuote v) (hs : m.stack ≠ [])
    (hro : ∀ b, m.getVar x = some b → b.readonly = false) :
    ∃ m' t pre post, m.addVar (x ++ '=' :: v) = some m' ∧
      m.stack = pre ++ t :: post ∧ (∀ i ∈ pre, varIn m x i = none) ∧
      ((varIn m x t).isSome = true ∨ (pre = [] ∧ ∀ i ∈ m.stack, varIn m x i = none)) ∧
      m'.stack = m.stack ∧ m'.exported = m.exported ∧ m'.next = m.next ∧
      (∀ i y, varIn m' y i = if i = t ∧ y = x then some { value := u } else varIn m y i) ∧
      (∀ i y, funcIn m' y i = funcIn m y i) ∧
      m'.getVar x = some { value := u } ∧
      (∀ y, Unqualified y → y ≠ x → m'.getVar y = m.getVar y) ∧
      (∀ ns y, Unqualified (ns ++ [':']) → Unqualified y → (y ≠ x ∨ m.exported.lookup ns ≠ some t) →
        m'.getVar (ns ++ ':' :: ':' :: y) = m.getVar (ns ++ ':' :: ':' :: y)) ∧
      (∀ f, m'.getFunction f = m.getFunction f) :=
  assign_to m x v u hx2 hxu (fun _ => addSet_eq hx2 hk hv hu hl) hs hro

end CtxMgr

end Rsh
