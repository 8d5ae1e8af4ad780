import Verif.Spec.Parameters
import Verif.Spec.Demo
import Verif.Props.Calls
import Verif.Props.Crash

/-!
# C33: the positional parameters, whatever the arguments
-/

namespace Rsh

open Spec

/-- The value the code computes. -/
def keptOf (a : Str) : Str := trimQuotes (a.takeWhile fun c => decide (c ≠ '='))

theorem keptOf_iff (a u : Str) : Keeps33 a u ↔ keptOf a = u := by
  have hb : ∀ b, (b = a ∧ '=' ∉ a ∨ '=' ∉ b ∧ ∃ t, a = b ++ '=' :: t) ↔ b = a.takeWhile fun c => decide (c ≠ '=') := by
    intro b
    constructor
    · rintro (⟨rfl, h⟩ | ⟨h, t, rfl⟩)
      · exact (takeWhile_none h).symm
      · rw [List.takeWhile_append_of_pos (by
          intro c hc
          have : c ≠ '=' := fun e => h (e ▸ hc)
          simpa using this)]
        simp
    · rintro rfl
      clear u
      induction a with
      | nil => exact .inl ⟨rfl, by simp⟩
      | cons c a ih =>
        by_cases hc : c = '='
        · subst hc
          exact .inr ⟨by simp, a, by simp⟩
        · rw [List.takeWhile_cons_of_pos (by simp [hc])]
          rcases ih with ⟨h1, h2⟩ | ⟨h1, t, h2⟩
          · exact .inl ⟨by rw [h1], by simp [h2, Ne.symm hc]⟩
          · exact .inr ⟨fun h => (List.mem_cons.1 h).elim (fun e => hc e.symm) h1, t, by rw [List.cons_append, ← h2]⟩
  have hu : ∀ b : Str, (LoneQuote b ∧ u = [] ∨ ¬ LoneQuote b ∧ Unquoted b u) ↔ trimQuotes b = u := by
    intro b
    constructor
    · rintro (⟨⟨q, hq, rfl⟩, rfl⟩ | ⟨hl, h⟩)
      · have : q = '"' ∨ q = '\'' := by simpa [quotes] using hq
        rcases this with rfl | rfl <;> decide
      · exact trimQuotes_unquoted h hl
    · rintro rfl
      by_cases hl : LoneQuote b
      · obtain ⟨q, hq, rfl⟩ := hl
        have : q = '"' ∨ q = '\'' := by simpa [quotes] using hq
        refine .inl ⟨⟨q, hq, rfl⟩, ?_⟩
        rcases this with rfl | rfl <;> decide
      · refine .inr ⟨hl, ?_⟩
        by_cases h : ∃ q ∈ quotes, ∃ t : Str, b = q :: (t ++ [q])
        · obtain ⟨q, hq, t, e⟩ := h
          have h1 : Unquoted b t := .inl ⟨q, hq, e⟩
          rw [trimQuotes_unquoted h1 hl]
          exact h1
        · have h1 : Unquoted b b := .inr ⟨fun q hq t e => h ⟨q, hq, t, e⟩, rfl⟩
          rw [trimQuotes_unquoted h1 hl]
          exact h1
  unfold Keeps33 keptOf
  constructor
  · rintro ⟨b, h1, h2⟩
    rw [← (hb b).1 h1]
    exact (hu b).1 h2
  · intro h
    exact ⟨_, (hb _).2 rfl, (hu _).2 h⟩

theorem fits_bindsTo {i : Nat} {a : Str} (h : FitsWord i a) : BindsTo (natStr i, a) (keptOf a) where
  noEq := natStr_no_eq i
  unq := natStr_unqualified i
  set c := by
    unfold Ctx.addSet
    rw [splitSet_eq _ _ (natStr_no_eq i)]
    simp only [keyOk_iff.2 h, if_true]
    rfl

theorem setParams_bound (as : List Str) (i : Nat) : setParams i as = bindAll (numbered i (boundWords as)) := by
  induction as generalizing i with
  | nil => rfl
  | cons a as ih =>
    rw [setParams]
    by_cases h : a = ['&']
    · rw [if_pos h, boundWords, List.takeWhile_cons_of_neg (by simp [h])]
      rfl
    · rw [if_neg h, boundWords, List.takeWhile_cons_of_pos (by simp [h]), numbered, bindAll, ih]
      rfl

/-- The words that are bound, with the name. -/
def boundArgs (c : SimpleCommand) : List Str := c.name :: boundWords c.words

theorem evalFunction_bound (rec : List AndOr → M Int) (c : SimpleCommand) (s : Sh) (body : FunctionBody)
    (hf : s.ctx.getFunction c.name = some body) :
    evalFunction rec c s = (do
      bindAll (numbered 0 (boundArgs c))
      evalCompound rec body.cc
      let _ ← popContext
      pure ()) { s with ctx := s.ctx.pushNew } := by
  unfold evalFunction boundArgs
  simp only [run_getS_bind, hf, pushContextNew, run_modS_bind, numbered, bindAll, bind_assoc]
  rw [setParams_bound]
  rfl

/-- C33, for every call whatever its arguments: if no read-only variable is in the way and the digits fit, the body
runs in a new context in which `$0` and `$1`, … are what is kept of the name and of the words before the first `&`;
every other variable and every function is the caller's. -/
theorem C33_exact (rec : List AndOr → M Int) (c : SimpleCommand) (s : Sh) (l : List AndOr)
    (io : Option (List IoRedirect)) (hg : Good s.ctx) (hf : s.ctx.getFunction c.name = some ⟨.braceGroup l, io⟩)
    (hfit : ∀ i a, (c.name :: boundWords c.words)[i]? = some a → FitsWord i a)
    (hro : ∀ i, i ≤ (boundWords c.words).length → ∀ b, s.ctx.getVar (natStr i) = some b → b.readonly = false) :
    ∃ s1, s1 = { s with ctx := s1.ctx } ∧ s1.ctx.stack = s.ctx.next :: s.ctx.stack ∧
      evalFunction rec c s = (do
        let _ ← tryE (rec l)
        let _ ← popContext
        pure ()) s1 ∧
      (∀ i a, (c.name :: boundWords c.words)[i]? = some a →
        ∃ u, Keeps33 a u ∧ s1.ctx.getVar (natStr i) = some { value := u }) ∧
      (∀ y, Unqualified y → (∀ i, i ≤ (boundWords c.words).length → y ≠ natStr i) →
        s1.ctx.getVar y = s.ctx.getVar y) ∧
      (∀ f, s1.ctx.getFunction f = s.ctx.getFunction f) := by
  have hnew : s.ctx.next ∉ s.ctx.stack := fun h => Nat.lt_irrefl _ (hg.stackLt _ h)
  have hheap : ∀ y j, j ∈ s.ctx.stack → varIn s.ctx.pushNew y j = varIn s.ctx y j := by
    intro y j hj
    have : j ≠ s.ctx.next := fun e => hnew (e ▸ hj)
    simp [varIn, CtxMgr.pushNew, this]
  have hfresh : ∀ y, varIn s.ctx.pushNew y s.ctx.next = none := by
    intro y; simp [varIn, CtxMgr.pushNew]
  have hstk : s.ctx.pushNew.stack = s.ctx.next :: s.ctx.stack := rfl
  have hget : ∀ y, Unqualified y → s.ctx.pushNew.getVar y = s.ctx.getVar y := by
    intro y hy
    rw [CtxMgr.getVar_unqualified _ hy, CtxMgr.getVar_unqualified _ hy, hstk, List.findSome?_cons, hfresh,
      findSome_congr fun j hj => hheap y j hj]
  have hmem : ∀ p ∈ numbered 0 (boundArgs c), ∃ i, i ≤ (boundWords c.words).length ∧ p.1 = natStr i ∧
      (boundArgs c)[i]? = some p.2 := by
    intro p hp
    obtain ⟨k, h1, h2⟩ := mem_numbered hp
    refine ⟨k, ?_, by simpa using h2, h1⟩
    have := (List.getElem?_eq_some_iff.1 h1).1
    simp only [boundArgs, List.length_cons] at this
    omega
  have hkeys : ∀ y, (∀ i, i ≤ (boundWords c.words).length → y ≠ natStr i) →
      y ∉ (numbered 0 (boundArgs c)).map Prod.fst := by
    intro y hy h
    obtain ⟨p, hp, rfl⟩ := List.mem_map.1 h
    obtain ⟨i, hi, e, _⟩ := hmem p hp
    exact hy i hi e
  obtain ⟨m1, hrun, hst, _, _, hfun, hall, hout, _⟩ :=
    bindAll_to keptOf (numbered 0 (boundArgs c)) { s with ctx := s.ctx.pushNew } s.ctx.next s.ctx.stack hstk hnew
      (numbered_nodup _ _)
      (fun p hp => by
        obtain ⟨i, _, e, h⟩ := hmem p hp
        have := fits_bindsTo (hfit i p.2 h)
        rwa [← e] at this)
      (fun p _ => hfresh _)
      (fun p hp b h => by
        obtain ⟨i, hi, e, _⟩ := hmem p hp
        have h' : s.ctx.pushNew.getVar p.1 = some b := h
        rw [e, hget _ (natStr_unqualified i)] at h'
        exact hro i hi b h')
  refine ⟨{ s with ctx := m1 }, rfl, hst.trans hstk, ?_, ?_, ?_, ?_⟩
  · rw [evalFunction_bound rec c s _ hf, run_bind_ok hrun]
    show (evalCompound rec (.braceGroup l) >>= _) _ = _
    simp only [evalCompound, bind_assoc, pure_bind]
  · intro i a h
    have hin := numbered_mem (i := 0) h
    rw [Nat.zero_add] at hin
    exact ⟨keptOf a, (keptOf_iff a _).2 rfl, hall _ hin⟩
  · intro y hy hne
    have e : varIn m1 y = varIn s.ctx.pushNew y := funext (hout y (hkeys y hne))
    show m1.getVar y = _
    rw [← hget y hy, CtxMgr.getVar_unqualified _ hy, CtxMgr.getVar_unqualified _ hy, e, hst]
  · intro f
    exact (hfun f).trans (CtxMgr.getFunction_pushNew hg f)

theorem bindAll_crash (ps : List (Nat × Str)) : ∀ (s : Sh), s.ctx.stack ≠ [] → (ps.map Prod.fst).Nodup →
    (∀ p ∈ ps, ∀ b, s.ctx.getVar (natStr p.1) = some b → b.readonly = false) → (∃ p ∈ ps, ¬ FitsWord p.1 p.2) →
    ∃ s', bindAll (ps.map fun p => (natStr p.1, p.2)) s = (.panic .unwrap, s') := by
  induction ps with
  | nil => rintro s _ _ _ ⟨p, hp, _⟩; cases hp
  | cons q ps ih =>
    obtain ⟨i, a⟩ := q
    intro s hst hnd hro hbad
    simp only [List.map_cons, List.nodup_cons] at hnd
    rw [List.map_cons, bindAll]
    by_cases hf : FitsWord i a
    · have hb := fits_bindsTo hf
      obtain ⟨m1, _, _, _, hadd, _, _, _, es, _, _, _, _, _, hother, _, _⟩ :=
        CtxMgr.assign_to s.ctx (natStr i) a _ hb.noEq hb.unq hb.set hst (hro (i, a) List.mem_cons_self)
      have h1 : addVarContext (natStr i ++ '=' :: a) s = (.ok (), { s with ctx := m1 }) := by
        unfold addVarContext
        simp [hadd, setCtxMgr]
      rw [run_bind_ok h1]
      refine ih { s with ctx := m1 } (by show m1.stack ≠ []; rw [es]; exact hst) hnd.2 (fun p hp b h => ?_) ?_
      · have h' : m1.getVar (natStr p.1) = some b := h
        rw [hother _ (natStr_unqualified _) (fun e => hnd.1 (by
          rw [← natStr_inj e]; exact List.mem_map_of_mem hp))] at h'
        exact hro p (List.mem_cons_of_mem _ hp) b h'
      · obtain ⟨p, hp, h⟩ := hbad
        rcases List.mem_cons.1 hp with rfl | hp
        · exact absurd hf h
        · exact ⟨p, hp, h⟩
    · have hadd : s.ctx.addVar (natStr i ++ '=' :: a) = none := by
        rw [CtxMgr.addVar_eq (natStr_no_eq i) (by
          rw [← CtxMgr.getVar_unqualified _ (natStr_unqualified i)]
          exact hro (i, a) List.mem_cons_self)]
        obtain ⟨t, ht, _⟩ := CtxMgr.target_spec (x := natStr i) hst
        rw [ht, Option.bind_some]
        unfold Ctx.addSet
        rw [splitSet_eq _ _ (natStr_no_eq i)]
        simp only [Bool.eq_false_iff.2 fun h => hf (keyOk_iff.1 h), Bool.false_eq_true, if_false]
        rfl
      refine ⟨s, ?_⟩
      rw [run_bind]
      unfold addVarContext
      rw [run_getS_bind, hadd]
      rfl

theorem numbered_map (as : List Str) (i : Nat) :
    numbered i as = (as.zipIdx i).map fun p => (natStr p.2, p.1) := by
  induction as generalizing i with
  | nil => rfl
  | cons a as ih => rw [numbered, List.zipIdx_cons, List.map_cons, ih]

/-- C33, the other calls: if the digits of an argument and of its position do not fit, the call crashes the shell. -/
theorem C33_digits (rec : List AndOr → M Int) (c : SimpleCommand) (s : Sh) (body : FunctionBody) (hg : Good s.ctx)
    (hf : s.ctx.getFunction c.name = some body)
    (hbad : ∃ i a, (c.name :: boundWords c.words)[i]? = some a ∧ ¬ FitsWord i a)
    (hro : ∀ i, i ≤ (boundWords c.words).length → ∀ b, s.ctx.getVar (natStr i) = some b → b.readonly = false) :
    ∃ s', evalFunction rec c s = (.panic .unwrap, s') := by
  have hnew : s.ctx.next ∉ s.ctx.stack := fun h => Nat.lt_irrefl _ (hg.stackLt _ h)
  have hget : ∀ y, Unqualified y → s.ctx.pushNew.getVar y = s.ctx.getVar y := by
    intro y hy
    rw [CtxMgr.getVar_unqualified _ hy, CtxMgr.getVar_unqualified _ hy]
    show (s.ctx.next :: s.ctx.stack).findSome? _ = _
    rw [List.findSome?_cons, show varIn s.ctx.pushNew y s.ctx.next = none by simp [varIn, CtxMgr.pushNew],
      findSome_congr (g := varIn s.ctx y) fun j hj => by
        have : j ≠ s.ctx.next := fun e => hnew (e ▸ hj)
        simp [varIn, CtxMgr.pushNew, this]]
  obtain ⟨i, a, hi, hn⟩ := hbad
  obtain ⟨s', h⟩ := bindAll_crash ((boundArgs c).zipIdx.map fun p => (p.2, p.1)) { s with ctx := s.ctx.pushNew }
    (by show s.ctx.next :: _ ≠ []; simp)
    (by
      rw [List.map_map]
      show ((boundArgs c).zipIdx.map Prod.snd).Nodup
      rw [List.zipIdx_map_snd]
      exact List.nodup_range')
    (fun p hp b h => by
      obtain ⟨q, hq, rfl⟩ := List.mem_map.1 hp
      have hlt := List.snd_lt_of_mem_zipIdx hq
      have h' : s.ctx.pushNew.getVar (natStr q.2) = some b := h
      rw [hget _ (natStr_unqualified _)] at h'
      simp only [boundArgs, List.length_cons, Nat.add_zero] at hlt
      exact hro q.2 (by omega) b h')
    ⟨(i, a), List.mem_map.2 ⟨(a, i), List.mem_zipIdx_iff_getElem?.2 hi, rfl⟩, hn⟩
  rw [List.map_map] at h
  refine ⟨s', ?_⟩
  rw [evalFunction_bound rec c s _ hf, numbered_map, run_bind]
  simp only [Function.comp_def] at h
  rw [h]

/-! ## Read-only variables named like parameters -/

/-- Is the variable read-only? -/
def guarded (m : CtxMgr) (x : Str) : Bool := (m.getVar x).any Var.readonly

theorem guarded_iff {m : CtxMgr} {x : Str} : guarded m x = true ↔ ∃ b, m.getVar x = some b ∧ b.readonly = true := by
  unfold guarded
  cases m.getVar x <;> simp

theorem guarded_false {m : CtxMgr} {x : Str} (h : guarded m x = false) : ∀ b, m.getVar x = some b → b.readonly = false := by
  intro b hb
  rw [guarded, hb] at h
  exact h

theorem addVar_guarded {m : CtxMgr} {i : Nat} {a : Str} (h : guarded m (natStr i) = true) :
    m.addVar (natStr i ++ '=' :: a) = some m := by
  obtain ⟨b, hb, hr⟩ := guarded_iff.1 h
  rw [CtxMgr.getVar_unqualified _ (natStr_unqualified i)] at hb
  obtain ⟨l1, id, l2, hst, hid, hpre⟩ := List.findSome?_eq_some_iff.1 hb
  have hn := setName_eq (natStr i) a (natStr_no_eq i)
  unfold CtxMgr.setName at hn
  unfold CtxMgr.addVar
  simp only [CtxMgr.setName, hn]
  have hid' : (m.heap id).getVar (natStr i) = some b := hid
  have hfind : m.findCtx (fun c => (c.getVar (natStr i)).isSome) = some id := by
    unfold CtxMgr.findCtx
    rw [hst]
    refine List.find?_eq_some_iff_append.2 ⟨by show ((m.heap id).getVar _).isSome = true; rw [hid']; rfl, l1, l2, rfl, fun j hj => ?_⟩
    have : (m.heap j).getVar (natStr i) = none := hpre j hj
    show (!((m.heap j).getVar _).isSome) = true
    rw [this]
    rfl
  simp only [hfind, hid', hr, if_true]

theorem addVar_misfit {m : CtxMgr} (hst : m.stack ≠ []) {i : Nat} {a : Str} (hg : guarded m (natStr i) = false)
    (hf : ¬ FitsWord i a) : m.addVar (natStr i ++ '=' :: a) = none := by
  rw [CtxMgr.addVar_eq (natStr_no_eq i) (by
    rw [← CtxMgr.getVar_unqualified _ (natStr_unqualified i)]
    exact guarded_false hg)]
  obtain ⟨t, ht, _⟩ := CtxMgr.target_spec (x := natStr i) hst
  rw [ht, Option.bind_some]
  unfold Ctx.addSet
  rw [splitSet_eq _ _ (natStr_no_eq i)]
  simp only [Bool.eq_false_iff.2 fun h => hf (keyOk_iff.1 h), Bool.false_eq_true, if_false]
  rfl

/-- Parameters whose variable is read-only are left out. -/
theorem bindAll_skip (ps : List (Nat × Str)) : ∀ (s : Sh), s.ctx.stack ≠ [] → (ps.map Prod.fst).Nodup →
    bindAll (ps.map fun p => (natStr p.1, p.2)) s =
      bindAll ((ps.filter fun p => !guarded s.ctx (natStr p.1)).map fun p => (natStr p.1, p.2)) s := by
  induction ps with
  | nil => intro s _ _; rfl
  | cons q ps ih =>
    obtain ⟨i, a⟩ := q
    intro s hst hnd
    simp only [List.map_cons, List.nodup_cons] at hnd
    rw [List.map_cons, bindAll]
    cases hg : guarded s.ctx (natStr i) with
    | true =>
      rw [List.filter_cons_of_neg (by simp [hg])]
      have h1 : addVarContext (natStr i ++ '=' :: a) s = (.ok (), s) := by
        unfold addVarContext
        simp [addVar_guarded hg, setCtxMgr]
      rw [run_bind_ok h1]
      exact ih s hst hnd.2
    | false =>
      rw [List.filter_cons_of_pos (by simp [hg]), List.map_cons, bindAll]
      by_cases hf : FitsWord i a
      · have hb := fits_bindsTo hf
        obtain ⟨m1, _, _, _, hadd, _, _, _, es, _, _, _, _, _, hother, _, _⟩ :=
          CtxMgr.assign_to s.ctx (natStr i) a _ hb.noEq hb.unq hb.set hst (guarded_false hg)
        have h1 : addVarContext (natStr i ++ '=' :: a) s = (.ok (), { s with ctx := m1 }) := by
          unfold addVarContext
          simp [hadd, setCtxMgr]
        rw [run_bind_ok h1, run_bind_ok h1, ih { s with ctx := m1 } (by show m1.stack ≠ []; rw [es]; exact hst) hnd.2]
        congr 2
        apply List.filter_congr
        intro p hp
        have : p.1 ≠ i := fun e => hnd.1 (e ▸ List.mem_map_of_mem hp)
        show (!guarded m1 _) = _
        unfold guarded
        rw [hother _ (natStr_unqualified _) fun e => this (natStr_inj e)]
      · have h1 : addVarContext (natStr i ++ '=' :: a) s = (.panic .unwrap, s) := by
          unfold addVarContext
          rw [run_getS_bind, addVar_misfit hst hg hf]
          rfl
        rw [run_bind_panic h1, run_bind_panic h1]

/-- C33, for every call whatever its arguments and whatever read-only variables there are: a parameter whose name is
that of a read-only variable keeps the value of that variable; the others are what is kept of the name and of the words
before the first `&`, if their digits fit. -/
theorem C33_always (rec : List AndOr → M Int) (c : SimpleCommand) (s : Sh) (l : List AndOr)
    (io : Option (List IoRedirect)) (hg : Good s.ctx) (hf : s.ctx.getFunction c.name = some ⟨.braceGroup l, io⟩)
    (hfit : ∀ i a, (c.name :: boundWords c.words)[i]? = some a →
      (∃ b, s.ctx.getVar (natStr i) = some b ∧ b.readonly = true) ∨ FitsWord i a) :
    ∃ s1, s1 = { s with ctx := s1.ctx } ∧ s1.ctx.stack = s.ctx.next :: s.ctx.stack ∧
      evalFunction rec c s = (do
        let _ ← tryE (rec l)
        let _ ← popContext
        pure ()) s1 ∧
      (∀ i a, (c.name :: boundWords c.words)[i]? = some a →
        (∀ b, s.ctx.getVar (natStr i) = some b → b.readonly = true → s1.ctx.getVar (natStr i) = some b) ∧
        ((∀ b, s.ctx.getVar (natStr i) = some b → b.readonly = false) →
          ∃ u, Keeps33 a u ∧ s1.ctx.getVar (natStr i) = some { value := u })) ∧
      (∀ y, Unqualified y → (∀ i, i ≤ (boundWords c.words).length → y ≠ natStr i) →
        s1.ctx.getVar y = s.ctx.getVar y) ∧
      (∀ f, s1.ctx.getFunction f = s.ctx.getFunction f) := by
  have hnew : s.ctx.next ∉ s.ctx.stack := fun h => Nat.lt_irrefl _ (hg.stackLt _ h)
  have hheap : ∀ y j, j ∈ s.ctx.stack → varIn s.ctx.pushNew y j = varIn s.ctx y j := by
    intro y j hj
    have : j ≠ s.ctx.next := fun e => hnew (e ▸ hj)
    simp [varIn, CtxMgr.pushNew, this]
  have hfresh : ∀ y, varIn s.ctx.pushNew y s.ctx.next = none := by
    intro y; simp [varIn, CtxMgr.pushNew]
  have hstk : s.ctx.pushNew.stack = s.ctx.next :: s.ctx.stack := rfl
  have hget : ∀ y, Unqualified y → s.ctx.pushNew.getVar y = s.ctx.getVar y := by
    intro y hy
    rw [CtxMgr.getVar_unqualified _ hy, CtxMgr.getVar_unqualified _ hy, hstk, List.findSome?_cons, hfresh,
      findSome_congr fun j hj => hheap y j hj]
  have hguard : ∀ i, guarded s.ctx.pushNew (natStr i) = guarded s.ctx (natStr i) := by
    intro i
    unfold guarded
    rw [hget _ (natStr_unqualified i)]
  let all : List (Nat × Str) := (boundArgs c).zipIdx.map fun p => (p.2, p.1)
  have hall : numbered 0 (boundArgs c) = all.map fun p => (natStr p.1, p.2) := by
    rw [numbered_map, List.map_map]
    rfl
  have hidx : (all.map Prod.fst).Nodup := by
    rw [List.map_map]
    show ((boundArgs c).zipIdx.map Prod.snd).Nodup
    rw [List.zipIdx_map_snd]
    exact List.nodup_range'
  have hin : ∀ p, p ∈ all ↔ (boundArgs c)[p.1]? = some p.2 := by
    intro p
    constructor
    · intro hp
      obtain ⟨q, hq, rfl⟩ := List.mem_map.1 hp
      exact List.mem_zipIdx_iff_getElem?.1 hq
    · intro h
      exact List.mem_map.2 ⟨(p.2, p.1), List.mem_zipIdx_iff_getElem?.2 h, rfl⟩
  let free := all.filter fun p => !guarded s.ctx.pushNew (natStr p.1)
  have hfree : ∀ p, p ∈ free ↔ (boundArgs c)[p.1]? = some p.2 ∧ guarded s.ctx (natStr p.1) = false := by
    intro p
    show p ∈ all.filter _ ↔ _
    rw [List.mem_filter, hin, hguard]
    simp
  have hkeys : ((free.map fun p => (natStr p.1, p.2)).map Prod.fst).Nodup := by
    rw [List.map_map]
    have h1 : (free.map Prod.fst).Nodup := hidx.sublist (List.filter_sublist.map _)
    have h2 : (free.map (Prod.fst ∘ fun p : Nat × Str => (natStr p.1, p.2))) = (free.map Prod.fst).map natStr := by
      rw [List.map_map]; rfl
    rw [h2]
    exact h1.map natStr fun _ _ hne e => hne (natStr_inj e)
  have hkey : ∀ y, y ∈ ((free.map fun p => (natStr p.1, p.2)).map Prod.fst) ↔
      ∃ i a, (boundArgs c)[i]? = some a ∧ guarded s.ctx (natStr i) = false ∧ y = natStr i := by
    intro y
    rw [List.map_map, List.mem_map]
    constructor
    · rintro ⟨p, hp, rfl⟩
      exact ⟨p.1, p.2, ((hfree p).1 hp).1, ((hfree p).1 hp).2, rfl⟩
    · rintro ⟨i, a, h1, h2, rfl⟩
      exact ⟨(i, a), (hfree (i, a)).2 ⟨h1, h2⟩, rfl⟩
  obtain ⟨m1, hrun, hst, _, _, hfun, hval, hout, _⟩ :=
    bindAll_to keptOf (free.map fun p => (natStr p.1, p.2)) { s with ctx := s.ctx.pushNew } s.ctx.next s.ctx.stack hstk hnew
      hkeys
      (fun p hp => by
        obtain ⟨q, hq, rfl⟩ := List.mem_map.1 hp
        obtain ⟨h1, h2⟩ := (hfree q).1 hq
        rcases hfit q.1 q.2 h1 with h | h
        · rw [guarded_iff.2 h] at h2
          cases h2
        · exact fits_bindsTo h)
      (fun p _ => hfresh _)
      (fun p hp b h => by
        obtain ⟨q, hq, rfl⟩ := List.mem_map.1 hp
        have h' : s.ctx.pushNew.getVar (natStr q.1) = some b := h
        rw [hget _ (natStr_unqualified _)] at h'
        exact guarded_false ((hfree q).1 hq).2 b h')
  rw [← bindAll_skip all { s with ctx := s.ctx.pushNew } (by show s.ctx.next :: _ ≠ []; simp) hidx, ← hall] at hrun
  have hkeep : ∀ y, Unqualified y → y ∉ ((free.map fun p => (natStr p.1, p.2)).map Prod.fst) →
      m1.getVar y = s.ctx.getVar y := by
    intro y hy hne
    have e : varIn m1 y = varIn s.ctx.pushNew y := funext (hout y hne)
    rw [← hget y hy, CtxMgr.getVar_unqualified _ hy, CtxMgr.getVar_unqualified _ hy, e, hst]
  refine ⟨{ s with ctx := m1 }, rfl, hst.trans hstk, ?_, ?_, ?_, ?_⟩
  · rw [evalFunction_bound rec c s _ hf, run_bind_ok hrun]
    show (evalCompound rec (.braceGroup l) >>= _) _ = _
    simp only [evalCompound, bind_assoc, pure_bind]
  · intro i a h
    refine ⟨fun b hb hr => ?_, fun hro => ?_⟩
    · show m1.getVar _ = _
      rw [hkeep _ (natStr_unqualified i) ?_, hb]
      intro hm
      obtain ⟨j, a', h1, h2, h3⟩ := (hkey _).1 hm
      rw [← h3] at h2
      rw [guarded_iff.2 ⟨b, hb, hr⟩] at h2
      cases h2
    · have hgi : guarded s.ctx (natStr i) = false := by
        cases hg' : guarded s.ctx (natStr i) with
        | false => rfl
        | true =>
          obtain ⟨b, hb, hr⟩ := guarded_iff.1 hg'
          rw [hro b hb] at hr
          cases hr
      refine ⟨keptOf a, (keptOf_iff a _).2 rfl, ?_⟩
      exact hval (natStr i, a) (List.mem_map.2 ⟨(i, a), (hfree (i, a)).2 ⟨h, hgi⟩, rfl⟩)
  · intro y hy hne
    refine hkeep y hy fun hm => ?_
    obtain ⟨i, a, h1, -, h3⟩ := (hkey _).1 hm
    have := (List.getElem?_eq_some_iff.1 h1).1
    simp only [boundArgs, List.length_cons] at this
    exact hne i (by omega) h3
  · intro f
    exact (hfun f).trans (CtxMgr.getFunction_pushNew hg f)

/-- C33, the other calls: if the digits of an argument and of its position do not fit, and no read-only variable is in
the way of that argument, the call crashes the shell. With `C33_always` this covers every call of a brace group. -/
theorem C33_crashes (rec : List AndOr → M Int) (c : SimpleCommand) (s : Sh) (body : FunctionBody) (hg : Good s.ctx)
    (hf : s.ctx.getFunction c.name = some body)
    (hbad : ∃ i a, (c.name :: boundWords c.words)[i]? = some a ∧ ¬ FitsWord i a ∧
      ∀ b, s.ctx.getVar (natStr i) = some b → b.readonly = false) :
    ∃ s', evalFunction rec c s = (.panic .unwrap, s') := by
  have hnew : s.ctx.next ∉ s.ctx.stack := fun h => Nat.lt_irrefl _ (hg.stackLt _ h)
  have hget : ∀ y, Unqualified y → s.ctx.pushNew.getVar y = s.ctx.getVar y := by
    intro y hy
    rw [CtxMgr.getVar_unqualified _ hy, CtxMgr.getVar_unqualified _ hy]
    show (s.ctx.next :: s.ctx.stack).findSome? _ = _
    rw [List.findSome?_cons, show varIn s.ctx.pushNew y s.ctx.next = none by simp [varIn, CtxMgr.pushNew],
      findSome_congr (g := varIn s.ctx y) fun j hj => by
        have : j ≠ s.ctx.next := fun e => hnew (e ▸ hj)
        simp [varIn, CtxMgr.pushNew, this]]
  have hidx : (((boundArgs c).zipIdx.map fun p => (p.2, p.1)).map Prod.fst).Nodup := by
    rw [List.map_map]
    show ((boundArgs c).zipIdx.map Prod.snd).Nodup
    rw [List.zipIdx_map_snd]
    exact List.nodup_range'
  obtain ⟨i, a, hi, hn, hro⟩ := hbad
  have hgi : guarded s.ctx.pushNew (natStr i) = false := by
    cases hg' : guarded s.ctx.pushNew (natStr i) with
    | false => rfl
    | true =>
      obtain ⟨b, hb, hr⟩ := guarded_iff.1 hg'
      rw [hget _ (natStr_unqualified i)] at hb
      rw [hro b hb] at hr
      cases hr
  obtain ⟨s', h⟩ := bindAll_crash (((boundArgs c).zipIdx.map fun p => (p.2, p.1)).filter
      fun p => !guarded s.ctx.pushNew (natStr p.1)) { s with ctx := s.ctx.pushNew }
    (by show s.ctx.next :: _ ≠ []; simp) (hidx.sublist (List.filter_sublist.map _))
    (fun p hp b h => by
      have h' : s.ctx.pushNew.getVar (natStr p.1) = some b := h
      exact guarded_false (by simpa using (List.mem_filter.1 hp).2) b h')
    ⟨(i, a), List.mem_filter.2 ⟨List.mem_map.2 ⟨(a, i), List.mem_zipIdx_iff_getElem?.2 hi, rfl⟩, by simp [hgi]⟩, hn⟩
  rw [← bindAll_skip _ { s with ctx := s.ctx.pushNew } (by show s.ctx.next :: _ ≠ []; simp) hidx, List.map_map] at h
  refine ⟨s', ?_⟩
  rw [evalFunction_bound rec c s _ hf, numbered_map, run_bind]
  simp only [Function.comp_def] at h
  rw [h]

/-- A read-only `$1` is kept. -/
example : started (demo [cs!"readonly 1=x", cs!"f() { echo $1 $2; }", cs!"f a b"] [.st (.exited 100 0)]).trace =
    [[cs!"echo", cs!"x", cs!"b"]] := by decide +kernel

/-- Calls with arguments of every kind, and one with too many digits. -/
example :
    Keeps33 (cs!"a=b=c") (cs!"a") ∧ Keeps33 (cs!"'x y'") (cs!"x y") ∧ Keeps33 (cs!"'") [] ∧ Keeps33 (cs!"'a'=b") (cs!"a") ∧
    boundWords [cs!"a", cs!"&", cs!"b"] = [cs!"a"] ∧ FitsWord 1 (cs!"8446744073709551615") ∧
    ¬ FitsWord 1 (cs!"8446744073709551616") ∧
    outcome (demoOut [cs!"f() { echo $1; }", cs!"f 8446744073709551615"] [.st (.exited 100 0)]) = .ok ∧
    outcome (demoOut [cs!"f() { echo $1; }", cs!"f 8446744073709551616"] [.st (.exited 100 0)]) = .panic .unwrap := by
  refine ⟨(keptOf_iff _ _).2 (by decide), (keptOf_iff _ _).2 (by decide), (keptOf_iff _ _).2 (by decide),
    (keptOf_iff _ _).2 (by decide), by decide, keyOk_iff.1 (by decide +kernel),
    fun h => absurd (keyOk_iff.2 h) (by decide +kernel), by decide +kernel, by decide +kernel⟩

end Rsh
