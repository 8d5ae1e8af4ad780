import Verif.Proofs.Frames
import Verif.Proofs.Digits

/-!
# Binding the parameters of a function call
-/

namespace Rsh

open Spec

/-- Assign a list of names in turn. -/
def bindAll : List (Str × Str) → M Unit
  | [] => pure ()
  | (x, a) :: ps => do
    addVarContext (x ++ '=' :: a)
    bindAll ps

/-- A name and value that can be assigned as they are. -/
structure Bindable (p : Str × Str) : Prop where
  noEq : '=' ∉ p.1
  unq : Unqualified p.1
  key : keyOk (p.1 ++ '=' :: p.2) = true
  valEq : '=' ∉ p.2
  valQ : Unquoted p.2 p.2
  valL : ¬ LoneQuote p.2

theorem findSome_congr {f g : Nat → Option α} {l : List Nat} (h : ∀ i ∈ l, f i = g i) :
    l.findSome? f = l.findSome? g := by
  induction l with
  | nil => rfl
  | cons i l ih =>
    rw [List.findSome?_cons, List.findSome?_cons, h i List.mem_cons_self,
      ih fun j hj => h j (List.mem_cons_of_mem _ hj)]

/-- A name and text that stand for the value `u`. -/
structure BindsTo (p : Str × Str) (u : Str) : Prop where
  noEq : '=' ∉ p.1
  unq : Unqualified p.1
  set : ∀ c : Ctx, c.addSet (p.1 ++ '=' :: p.2) = some (c.addVarStruct p.1 { value := u })

theorem Bindable.to {p : Str × Str} (h : Bindable p) : BindsTo p p.2 :=
  ⟨h.noEq, h.unq, fun _ => CtxMgr.addSet_eq h.noEq h.key h.valEq h.valQ h.valL⟩

theorem bindAll_to (val : Str → Str) (ps : List (Str × Str)) : ∀ (s : Sh) (top : Nat) (rest : List Nat),
    s.ctx.stack = top :: rest → top ∉ rest → (ps.map Prod.fst).Nodup →
    (∀ p ∈ ps, BindsTo p (val p.2)) → (∀ p ∈ ps, varIn s.ctx p.1 top = none) →
    (∀ p ∈ ps, ∀ b, s.ctx.getVar p.1 = some b → b.readonly = false) →
    ∃ m', bindAll ps s = (.ok (), { s with ctx := m' }) ∧
      m'.stack = s.ctx.stack ∧ m'.next = s.ctx.next ∧ m'.exported = s.ctx.exported ∧
      (∀ f, m'.getFunction f = s.ctx.getFunction f) ∧
      (∀ p ∈ ps, m'.getVar p.1 = some { value := val p.2 }) ∧
      (∀ y, y ∉ ps.map Prod.fst → ∀ j, varIn m' y j = varIn s.ctx y j) ∧
      (∀ p ∈ ps, rest.findSome? (varIn m' p.1) =
        if (rest.findSome? (varIn s.ctx p.1)).isSome then some { value := val p.2 } else none) := by
  induction ps with
  | nil =>
    intro s top rest _ _ _ _ _ _
    exact ⟨s.ctx, rfl, rfl, rfl, rfl, fun _ => rfl, by simp, fun _ _ _ => rfl, by simp⟩
  | cons p ps ih =>
    obtain ⟨x, a⟩ := p
    intro s top rest hst hnt hnd hb hfresh hro
    have hbx := hb (x, a) List.mem_cons_self
    have hux : Unqualified x := hbx.unq
    simp only [List.map_cons, List.nodup_cons] at hnd
    obtain ⟨m1, t, pre, post, hadd, hst1, hpre, hor, es, ee, en, hvar, hfun, hget, hother, hq, hgf⟩ :=
      CtxMgr.assign_to s.ctx x a (val a) hbx.noEq hbx.unq hbx.set
        (by rw [hst]; simp) (hro (x, a) List.mem_cons_self)
    have hxin : ∀ p ∈ ps, p.1 ≠ x := fun p hp e => hnd.1 (by
      rw [← e]; exact List.mem_map_of_mem hp)
    have hvar' : ∀ y, y ≠ x → ∀ j, varIn m1 y j = varIn s.ctx y j := fun y hy j => by
      rw [hvar]; simp [hy]
    obtain ⟨m', hrun, es', en', ee', hgf', hall, hout, hrest⟩ :=
      ih { s with ctx := m1 } top rest (by show m1.stack = _; rw [es, hst]) hnt hnd.2
        (fun p hp => hb p (List.mem_cons_of_mem _ hp))
        (fun p hp => by
          show varIn m1 p.1 top = none
          rw [hvar' _ (hxin p hp)]; exact hfresh p (List.mem_cons_of_mem _ hp))
        (fun p hp b h => by
          have h' : m1.getVar p.1 = some b := h
          rw [hother _ (hb p (List.mem_cons_of_mem _ hp)).unq (hxin p hp)] at h'
          exact hro p (List.mem_cons_of_mem _ hp) b h')
    have hxnot : x ∉ ps.map Prod.fst := hnd.1
    have hx1 : ∀ j, varIn m' x j = varIn m1 x j := hout x hxnot
    have hgx : m'.getVar x = some { value := val a } := by
      rw [← hget, CtxMgr.getVar_unqualified _ hux, CtxMgr.getVar_unqualified _ hux]
      have : varIn m' x = varIn m1 x := funext hx1
      rw [this, es']
    have hrun1 : bindAll ((x, a) :: ps) s = (.ok (), { s with ctx := m' }) := by
      rw [bindAll]
      have h1 : addVarContext (x ++ '=' :: a) s = (.ok (), { s with ctx := m1 }) := by
        unfold addVarContext
        simp [hadd, setCtxMgr]
      rw [run_bind_ok h1, hrun]
    refine ⟨m', hrun1, es'.trans es, en'.trans en, ee'.trans ee, fun f => (hgf' f).trans (hgf f),
      ?_, ?_, ?_⟩
    · intro p hp
      rcases List.mem_cons.1 hp with rfl | hp
      · exact hgx
      · exact hall p hp
    · intro y hy j
      simp only [List.map_cons, List.mem_cons, not_or] at hy
      rw [hout y hy.2 j]
      exact hvar' y hy.1 j
    · intro p hp
      rcases List.mem_cons.1 hp with rfl | hp
      · -- the first parameter
        have e1 : rest.findSome? (varIn m' x) = rest.findSome? (varIn m1 x) :=
          findSome_congr fun j _ => hx1 j
        show rest.findSome? (varIn m' x) = if (rest.findSome? (varIn s.ctx x)).isSome then _ else _
        rw [e1]
        have hft := hfresh (x, a) List.mem_cons_self
        have hall1 : s.ctx.getVar x = rest.findSome? (varIn s.ctx x) := by
          rw [CtxMgr.getVar_unqualified _ hux, hst, List.findSome?_cons]
          rw [show varIn s.ctx x top = none from hft]
        have hall2 : varIn m1 x top = none → m1.getVar x = rest.findSome? (varIn m1 x) := by
          intro h0
          rw [CtxMgr.getVar_unqualified _ hux, es, hst, List.findSome?_cons, h0]
        rcases hor with h | ⟨hp0, hn⟩
        · have htt : t ≠ top := by
            rintro rfl
            rw [show varIn s.ctx x t = none from hft] at h; cases h
          have h1 : (rest.findSome? (varIn s.ctx x)).isSome = true := by
            rw [← hall1, CtxMgr.getVar_unqualified _ hux, hst1, List.findSome?_append]
            rcases hv : varIn s.ctx x t with _ | b
            · rw [hv] at h; cases h
            · simp [hv]
          rw [if_pos h1]
          have h2 : varIn m1 x top = none := by
            rw [hvar, if_neg (fun h => htt h.1.symm)]; exact hft
          exact (hall2 h2).symm.trans hget
        · have hn' : ∀ i ∈ rest, varIn s.ctx x i = none := fun i hi => hn i (by
            rw [hst]; exact List.mem_cons_of_mem _ hi)
          have h1 : rest.findSome? (varIn s.ctx x) = none := by
            rw [List.findSome?_eq_none_iff]; exact hn'
          rw [h1]
          simp only [Option.isSome_none, Bool.false_eq_true, if_false]
          rw [List.findSome?_eq_none_iff]
          intro i hi
          rw [hvar, if_neg, hn' i hi]
          rintro ⟨rfl, _⟩
          rw [hst, hp0] at hst1
          simp at hst1
          exact hnt (by rw [hst1.1]; exact hi)
      · rw [hrest p hp]
        have : rest.findSome? (varIn m1 p.1) = rest.findSome? (varIn s.ctx p.1) :=
          findSome_congr fun j _ => hvar' _ (hxin p hp) j
        show (if (rest.findSome? (varIn m1 p.1)).isSome then _ else _) = _
        rw [this]

theorem bindAll_spec (ps : List (Str × Str)) : ∀ (s : Sh) (top : Nat) (rest : List Nat),
    s.ctx.stack = top :: rest → top ∉ rest → (ps.map Prod.fst).Nodup →
    (∀ p ∈ ps, Bindable p) → (∀ p ∈ ps, varIn s.ctx p.1 top = none) →
    (∀ p ∈ ps, ∀ b, s.ctx.getVar p.1 = some b → b.readonly = false) →
    ∃ m', bindAll ps s = (.ok (), { s with ctx := m' }) ∧
      m'.stack = s.ctx.stack ∧ m'.next = s.ctx.next ∧ m'.exported = s.ctx.exported ∧
      (∀ f, m'.getFunction f = s.ctx.getFunction f) ∧
      (∀ p ∈ ps, m'.getVar p.1 = some { value := p.2 }) ∧
      (∀ y, y ∉ ps.map Prod.fst → ∀ j, varIn m' y j = varIn s.ctx y j) ∧
      (∀ p ∈ ps, rest.findSome? (varIn m' p.1) =
        if (rest.findSome? (varIn s.ctx p.1)).isSome then some { value := p.2 } else none) :=
  fun s top rest h1 h2 h3 h4 h5 h6 => bindAll_to id ps s top rest h1 h2 h3 (fun p hp => (h4 p hp).to) h5 h6

/-- The parameters of a call, numbered from `i`. -/
def numbered : Nat → List Str → List (Str × Str)
  | _, [] => []
  | i, a :: as => (natStr i, a) :: numbered (i + 1) as

theorem setParams_eq (as : List Str) (h : ['&'] ∉ as) (i : Nat) :
    setParams i as = bindAll (numbered i as) := by
  induction as generalizing i with
  | nil => rfl
  | cons a as ih =>
    simp only [List.mem_cons, not_or] at h
    rw [setParams, if_neg (Ne.symm h.1), numbered, bindAll, ih h.2]

theorem mem_numbered {as : List Str} {i : Nat} {p : Str × Str} (h : p ∈ numbered i as) :
    ∃ k, as[k]? = some p.2 ∧ p.1 = natStr (i + k) := by
  induction as generalizing i with
  | nil => cases h
  | cons a as ih =>
    rcases List.mem_cons.1 h with rfl | h
    · exact ⟨0, rfl, rfl⟩
    · obtain ⟨k, h1, h2⟩ := ih h
      exact ⟨k + 1, h1, by rw [h2, Nat.add_right_comm, Nat.add_assoc]⟩

theorem numbered_mem {as : List Str} {i k : Nat} {a : Str} (h : as[k]? = some a) :
    (natStr (i + k), a) ∈ numbered i as := by
  induction as generalizing i k with
  | nil => simp at h
  | cons b as ih =>
    cases k with
    | zero => simp at h; subst h; exact List.mem_cons_self
    | succ k =>
      simp at h
      have := ih (i := i + 1) h
      rw [numbered]
      refine List.mem_cons_of_mem _ ?_
      rwa [Nat.add_right_comm, Nat.add_assoc] at this

theorem numbered_keys {as : List Str} {i : Nat} {x : Str} (h : x ∈ (numbered i as).map Prod.fst) :
    ∃ k, k < as.length ∧ x = natStr (i + k) := by
  obtain ⟨p, hp, rfl⟩ := List.mem_map.1 h
  obtain ⟨k, h1, h2⟩ := mem_numbered hp
  exact ⟨k, (List.getElem?_eq_some_iff.1 h1).1, h2⟩

theorem numbered_nodup (as : List Str) (i : Nat) : ((numbered i as).map Prod.fst).Nodup := by
  induction as generalizing i with
  | nil => simp [numbered]
  | cons a as ih =>
    rw [numbered, List.map_cons, List.nodup_cons]
    refine ⟨fun h => ?_, ih _⟩
    obtain ⟨k, _, e⟩ := numbered_keys h
    have := natStr_inj e
    omega

/-- The parameters of a call, `$0` included. -/
def callParams (c : SimpleCommand) : List (Str × Str) := (natStr 0, c.name) :: numbered 1 c.words

theorem callParams_nodup (c : SimpleCommand) : ((callParams c).map Prod.fst).Nodup := by
  rw [callParams, List.map_cons, List.nodup_cons]
  refine ⟨fun h => ?_, numbered_nodup _ _⟩
  obtain ⟨k, _, e⟩ := numbered_keys h
  have := natStr_inj (show natStr 0 = natStr (1 + k) from e)
  omega

/-- A call binds its parameters in a new context, runs the body and drops the context. -/
theorem evalFunction_eq (rec : List AndOr → M Int) (c : SimpleCommand) (s : Sh) (body : FunctionBody)
    (hf : s.ctx.getFunction c.name = some body) (h : ['&'] ∉ c.words) :
    evalFunction rec c s = (do
      bindAll (callParams c)
      evalCompound rec body.cc
      let _ ← popContext
      pure ()) { s with ctx := s.ctx.pushNew } := by
  unfold evalFunction
  simp only [run_getS_bind, hf, pushContextNew, run_modS_bind, callParams, bindAll, bind_assoc]
  rw [setParams_eq _ h]
  rfl

end Rsh
