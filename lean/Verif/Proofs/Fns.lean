import Verif.Spec.Fns
import Verif.Proofs.Mini
import Verif.Props.Calls

/-!
# The small language with functions
-/

namespace Rsh

open Spec

/-! ## Scopes -/

/-- The scopes of a shell. -/
def scopesIn (m : CtxMgr) (l : List Nat) : List Scope := l.map fun i x => (varIn m x i).map Var.value

theorem seen_scopes (s : Sh) {x : Str} (h : Unqualified x) : valueOf s x = seen (scopesIn s.ctx s.ctx.stack) x := by
  unfold valueOf seen scopesIn
  rw [CtxMgr.getVar_unqualified _ h]
  induction s.ctx.stack with
  | nil => rfl
  | cons i l ih =>
    rw [List.map_cons, List.findSome?_cons, List.findSome?_cons]
    cases e : varIn s.ctx x i with
    | none => simpa [e] using ih
    | some b => simp [e]

theorem assign_scopes {m m' : CtxMgr} {x v : Str} {t : Nat} {post : List Nat}
    (hvar : ∀ i y, varIn m' y i = if i = t ∧ y = x then some { value := v } else varIn m y i) (pre : List Nat) :
    (pre ++ t :: post).Nodup → (∀ i ∈ pre, varIn m x i = none) →
    ((varIn m x t).isSome = true ∨ (pre = [] ∧ ∀ i ∈ post, varIn m x i = none)) →
    scopesIn m' (pre ++ t :: post) = assignIn x v (scopesIn m (pre ++ t :: post)) := by
  have hsame : ∀ i, i ≠ t → (fun y => (varIn m' y i).map Var.value) = fun y => (varIn m y i).map Var.value := by
    intro i hi
    funext y
    rw [hvar, if_neg (fun e => hi e.1)]
  have ht : (fun y => (varIn m' y t).map Var.value) = Scope.put x v (fun y => (varIn m y t).map Var.value) := by
    funext y
    rw [hvar]
    unfold Scope.put
    by_cases e : y = x <;> simp [e]
  induction pre with
  | nil =>
    intro hnd _ hor
    simp only [List.nil_append, List.nodup_cons] at hnd ⊢
    have hpost : scopesIn m' post = scopesIn m post :=
      List.map_congr_left fun i hi => hsame i fun e => hnd.1 (e ▸ hi)
    show (fun y => (varIn m' y t).map Var.value) :: scopesIn m' post = _
    rw [ht, hpost]
    show _ = assignIn x v ((fun y => (varIn m y t).map Var.value) :: scopesIn m post)
    rw [assignIn, if_pos]
    rcases hor with h | ⟨-, h⟩
    · left
      simpa using h
    · right
      unfold seen scopesIn
      rw [Option.isNone_iff_eq_none, List.findSome?_eq_none_iff]
      intro sc hsc
      obtain ⟨i, hi, rfl⟩ := List.mem_map.1 hsc
      simp [h i hi]
  | cons p pre ih =>
    intro hnd hpre hor
    rw [List.cons_append, List.nodup_cons] at hnd
    have hor' : (varIn m x t).isSome = true := by
      rcases hor with h | ⟨h, -⟩
      · exact h
      · cases h
    rw [List.cons_append]
    show (fun y => (varIn m' y p).map Var.value) :: scopesIn m' (pre ++ t :: post) =
      assignIn x v ((fun y => (varIn m y p).map Var.value) :: scopesIn m (pre ++ t :: post))
    rw [assignIn, if_neg, hsame p (fun e => hnd.1 (by simp [e])),
      ih hnd.2 (fun i hi => hpre i (List.mem_cons_of_mem _ hi)) (.inl hor')]
    rintro (h | h)
    · rw [hpre p List.mem_cons_self] at h
      cases h
    · rw [Option.isNone_iff_eq_none] at h
      unfold seen at h
      rw [List.findSome?_eq_none_iff] at h
      have := h _ (List.mem_map_of_mem (f := fun i x => (varIn m x i).map Var.value)
        (show t ∈ pre ++ t :: post by simp))
      simp only [Option.map_eq_none_iff] at this
      rw [this] at hor'
      cases hor'

/-- In the contexts `l` `PS1` does not go away, `PATH` stays the same, no variable becomes readonly, and the functions
are the same. -/
def Widens (l : List Nat) (m m' : CtxMgr) : Prop :=
  ∀ i ∈ l, ((varIn m (cs!"PS1") i).isSome = true → (varIn m' (cs!"PS1") i).isSome = true) ∧
    varIn m' (cs!"PATH") i = varIn m (cs!"PATH") i ∧
    (∀ x b, varIn m' x i = some b → b.readonly = false ∨ varIn m x i = some b) ∧
    ∀ f, funcIn m' f i = funcIn m f i

theorem Widens.refl (l : List Nat) (m : CtxMgr) : Widens l m m :=
  fun _ _ => ⟨fun h => h, rfl, fun _ _ h => .inr h, fun _ => rfl⟩

theorem Widens.trans {l : List Nat} {a b c : CtxMgr} (h1 : Widens l a b) (h2 : Widens l b c) : Widens l a c := by
  intro i hi
  obtain ⟨a1, a2, a3, a4⟩ := h1 i hi
  obtain ⟨b1, b2, b3, b4⟩ := h2 i hi
  refine ⟨fun h => b1 (a1 h), b2.trans a2, fun x b h => ?_, fun f => (b4 f).trans (a4 f)⟩
  rcases b3 x b h with h | h
  · exact .inl h
  · exact a3 x b h

theorem Widens.sub {l k : List Nat} {a b : CtxMgr} (h : Widens l a b) (hk : ∀ i ∈ k, i ∈ l) : Widens k a b :=
  fun i hi => h i (hk i hi)

theorem widens_assign {m m' : CtxMgr} {x v : Str} {t : Nat} (l : List Nat) (hx : x ≠ cs!"PATH")
    (hvar : ∀ i y, varIn m' y i = if i = t ∧ y = x then some { value := v } else varIn m y i)
    (hfun : ∀ i f, funcIn m' f i = funcIn m f i) : Widens l m m' := by
  intro i _
  refine ⟨fun h => ?_, ?_, fun y b h => ?_, hfun i⟩
  · rw [hvar]
    split
    · rfl
    · exact h
  · rw [hvar, if_neg]
    exact fun e => hx e.2.symm
  · rw [hvar] at h
    split at h
    · cases h
      exact .inl rfl
    · exact .inr h

theorem Widens.writable {m m' : CtxMgr} {x : Str} (h : Widens m.stack m m') (hs : m'.stack = m.stack)
    (hw : Writable m x) : Writable m' x := by
  intro i hi b hb
  rw [hs] at hi
  rcases (h i hi).2.2.1 x b hb with e | e
  · exact e
  · exact hw i hi b e

theorem Widens.functions {m m' : CtxMgr} (h : Widens m.stack m m') (hs : m'.stack = m.stack) {f : Str}
    (hf : Unqualified f) : m'.getFunction f = m.getFunction f := by
  rw [CtxMgr.getFunction_unqualified _ hf, CtxMgr.getFunction_unqualified _ hf, hs]
  exact findSome_congr fun i hi => (h i hi).2.2.2 f

theorem Widens.keepsPath {s s' : Sh} (h : Widens s.ctx.stack s.ctx s'.ctx) (hs : s'.ctx.stack = s.ctx.stack) :
    pathOf s' = pathOf s := by
  unfold pathOf
  rw [hs]
  rcases e : s.ctx.stack.getLast? with _ | i
  · rfl
  · simp only [Option.bind_some]
    congr 1
    exact (h i (List.mem_of_getLast? e)).2.1

theorem value_ne {s : Sh} {x : Str} (hx : Unqualified x) :
    valueOf s x ≠ none ↔ ∃ i ∈ s.ctx.stack, (varIn s.ctx x i).isSome = true := by
  unfold valueOf
  rw [CtxMgr.getVar_unqualified _ hx, ne_eq, Option.map_eq_none_iff, List.findSome?_eq_none_iff]
  constructor
  · intro h
    simp only [Classical.not_forall] at h
    obtain ⟨i, hi, h⟩ := h
    exact ⟨i, hi, Option.isSome_iff_ne_none.2 h⟩
  · rintro ⟨i, hi, h⟩ hn
    rw [hn i hi] at h
    cases h

theorem Widens.keepsSet {s s' : Sh} (h : Widens s.ctx.stack s.ctx s'.ctx) (hs : s'.ctx.stack = s.ctx.stack)
    (hv : valueOf s (cs!"PS1") ≠ none) : valueOf s' (cs!"PS1") ≠ none := by
  have hx : Unqualified (cs!"PS1") := unqualified_iff.2 rfl
  rw [value_ne hx] at hv ⊢
  obtain ⟨i, hi, e⟩ := hv
  exact ⟨i, by rw [hs]; exact hi, (h i hi).1 e⟩

/-- The scopes after a step that is not a call. -/
def scopesAfter (l : List Scope) : MiniStep → List Scope
  | .assign x _ v => assignIn x v l
  | _ => l

/-- What a step that is not a call makes of the contexts. -/
theorem CtxAfter.scopes {m m' : CtxMgr} {t : MiniStep} (h : CtxAfter m m' t) (hg : Good m)
    (ht : ∀ x q v, t = .assign x q v → x ≠ cs!"PATH") :
    scopesIn m' m'.stack = scopesAfter (scopesIn m m.stack) t ∧
      m'.stack = m.stack ∧ Widens m.stack m m' ∧ Good m' := by
  cases t with
  | assign x q v =>
    obtain ⟨t, pre, post, h1, h2, h3, h4, h5, h6, -, h8⟩ := h
    refine ⟨?_, h4, widens_assign _ (ht x q v rfl) h5 h6, h8 hg⟩
    rw [h4, scopesAfter, h1]
    refine assign_scopes h5 pre (by rw [← h1]; exact hg.nodup) h2 ?_
    rcases h3 with h | ⟨e, h⟩
    · exact .inl h
    · exact .inr ⟨e, fun i hi => h i (by rw [h1]; simp [hi])⟩
  | cd d => cases h; exact ⟨rfl, rfl, Widens.refl _ _, hg⟩
  | run c cs => cases h; exact ⟨rfl, rfl, Widens.refl _ _, hg⟩
  | «export» x q v => cases h; exact ⟨rfl, rfl, Widens.refl _ _, hg⟩
  | unset x g => cases h; exact ⟨rfl, rfl, Widens.refl _ _, hg⟩
  | exit c => cases h; exact ⟨rfl, rfl, Widens.refl _ _, hg⟩
  | source d p as => cases h; exact ⟨rfl, rfl, Widens.refl _ _, hg⟩
  | eval a as => cases h; exact ⟨rfl, rfl, Widens.refl _ _, hg⟩
  | full c cs => cases h; exact ⟨rfl, rfl, Widens.refl _ _, hg⟩
  | «return» c => cases h; exact ⟨rfl, rfl, Widens.refl _ _, hg⟩
  | pwd => cases h; exact ⟨rfl, rfl, Widens.refl _ _, hg⟩
  | other b => cases b <;> cases h <;> exact ⟨rfl, rfl, Widens.refl _ _, hg⟩

/-! ## Parameters -/

theorem passable_plain {i : Nat} {a : Str} (h : Passable i a) : PlainArg i a where
  noEq := h.1
  notAmp := h.2.1
  noQuotes q hq t e := h.2.2.1.1 q hq (by rw [e]; rfl)
  notLone := by
    rintro ⟨c, hc, e⟩
    exact h.2.2.1.1 c hc (by rw [e]; rfl)
  digits := h.2.2.2

theorem natStr_ne_path (i : Nat) : natStr i ≠ cs!"PATH" := by
  intro e
  have := natStr_digit (n := i) (c := 'P') (by rw [e]; decide)
  revert this
  decide

theorem bind_scopes (as : List Str) : ∀ (i : Nat) (s : Sh), AllPassable i as → Good s.ctx →
    (∀ j, Writable s.ctx (natStr j)) →
    ∃ m', bindAll (numbered i as) s = (.ok (), { s with ctx := m' }) ∧
      scopesIn m' m'.stack = bindIn i as (scopesIn s.ctx s.ctx.stack) ∧ m'.stack = s.ctx.stack ∧
      Widens s.ctx.stack s.ctx m' ∧ Good m' := by
  induction as with
  | nil => intro i s _ hg _; exact ⟨s.ctx, rfl, rfl, rfl, Widens.refl _ _, hg⟩
  | cons a as ih =>
    intro i s hp hg hro
    have hb := (plain_bindable (passable_plain hp.1)).to
    obtain ⟨m1, t, pre, post, b1, b2, b3, b4, b5, -, -, b6, b7, -, -, -, -⟩ :=
      CtxMgr.assign_to s.ctx (natStr i) a a hb.noEq hb.unq hb.set hg.nonempty (by
        intro b hb
        rw [CtxMgr.getVar_unqualified _ (natStr_unqualified i)] at hb
        obtain ⟨k, hk, e⟩ := List.exists_of_findSome?_eq_some hb
        exact hro i k hk b e)
    have hg1 : Good m1 := (Shape.addVar b1).good hg
    have hw1 : Widens s.ctx.stack s.ctx m1 := widens_assign _ (natStr_ne_path i) b6 b7
    obtain ⟨m', c1, c2, c3, c4, c5⟩ := ih (i + 1) { s with ctx := m1 } hp.2 hg1 (fun j => hw1.writable b5 (hro j))
    have hrun : addVarContext (natStr i ++ '=' :: a) s = (.ok (), { s with ctx := m1 }) := by
      unfold addVarContext
      rw [run_getS_bind, b1]
      rfl
    refine ⟨m', ?_, ?_, c3.trans b5, hw1.trans (c4.sub fun i hi => by show i ∈ m1.stack; rw [b5]; exact hi), c5⟩
    · rw [numbered, bindAll, run_bind_ok hrun]
      exact c1
    · rw [c2, bindIn]
      congr 1
      show scopesIn m1 m1.stack = _
      rw [b5, b2]
      refine assign_scopes b6 pre (by rw [← b2]; exact hg.nodup) b3 ?_
      rcases b4 with h | ⟨e, h⟩
      · exact .inl h
      · exact .inr ⟨e, fun k hk => h k (by rw [b2]; simp [hk])⟩

/-! ## Values -/

/-- All values are clean. -/
def CleanScopes (l : List Scope) : Prop := ∀ sc ∈ l, ∀ x v, Unqualified x → sc x = some v → CleanValue v

theorem CleanScopes.seen {l : List Scope} (h : CleanScopes l) : CleanVars (seen l) := by
  intro x v hx hv
  obtain ⟨sc, hsc, e⟩ := List.exists_of_findSome?_eq_some hv
  exact h sc hsc x v hx e

theorem CleanScopes.assign {x v : Str} (hv : CleanValue v) : ∀ {l : List Scope}, CleanScopes l →
    CleanScopes (assignIn x v l)
  | [], h => h
  | sc :: rest, h => by
    have hrest : CleanScopes rest := fun k hk => h k (List.mem_cons_of_mem _ hk)
    rw [assignIn]
    split
    · intro k hk y z hy hz
      rcases List.mem_cons.1 hk with rfl | hk
      · unfold Scope.put at hz
        split at hz
        · cases hz; exact hv
        · exact h sc List.mem_cons_self y z hy hz
      · exact hrest k hk y z hy hz
    · intro k hk
      rcases List.mem_cons.1 hk with rfl | hk
      · exact h k List.mem_cons_self
      · exact hrest.assign hv k hk

theorem CleanScopes.bind {as : List Str} : ∀ {i : Nat} {l : List Scope}, AllPassable i as → CleanScopes l →
    CleanScopes (bindIn i as l) := by
  induction as with
  | nil => intro i l _ h; exact h
  | cons a as ih => intro i l hp h; exact ih hp.2 (h.assign hp.1.2.2.1)

/-! ## `export` and `unset` -/

theorem exportIn_cons {x v : Str} {sc : Scope} {rest : List Scope} (h : rest ≠ []) :
    exportIn x v (sc :: rest) = sc :: exportIn x v rest := by
  cases rest with
  | nil => exact absurd rfl h
  | cons b l => rfl

theorem export_scopes {m m' : CtxMgr} {x v : Str} {out : Nat}
    (hvar : ∀ i y, varIn m' y i = if i = out ∧ y = x then some ⟨v, false⟩ else varIn m y i) (init : List Nat) :
    (init ++ [out]).Nodup → scopesIn m' (init ++ [out]) = exportIn x v (scopesIn m (init ++ [out])) := by
  induction init with
  | nil =>
    intro _
    show [fun y => (varIn m' y out).map Var.value] = [Scope.put x v fun y => (varIn m y out).map Var.value]
    congr 1
    funext y
    rw [hvar]
    unfold Scope.put
    by_cases e : y = x <;> simp [e]
  | cons p init ih =>
    intro hnd
    rw [List.cons_append, List.nodup_cons] at hnd
    rw [List.cons_append]
    show (fun y => (varIn m' y p).map Var.value) :: scopesIn m' (init ++ [out]) =
      exportIn x v ((fun y => (varIn m y p).map Var.value) :: scopesIn m (init ++ [out]))
    rw [exportIn_cons (by simp [scopesIn]), ih hnd.2]
    congr 1
    funext y
    rw [hvar, if_neg]
    rintro ⟨rfl, -⟩
    exact hnd.1 (by simp)

theorem unset_absent {m : CtxMgr} {x : Str} (l : List Nat) (h : ∀ i ∈ l, varIn m x i = none) :
    unsetIn x (scopesIn m l) = scopesIn m l := by
  induction l with
  | nil => rfl
  | cons i l ih =>
    show unsetIn x ((fun y => (varIn m y i).map Var.value) :: scopesIn m l) = _
    rw [unsetIn, if_neg (by simp [h i List.mem_cons_self]), ih fun j hj => h j (List.mem_cons_of_mem _ hj)]
    rfl

theorem unset_scopes {m m' : CtxMgr} {x : Str} {t : Nat} {post : List Nat}
    (hvar : ∀ i y, varIn m' y i = if i = t ∧ y = x then none else varIn m y i) (ht : (varIn m x t).isSome = true)
    (pre : List Nat) : (pre ++ t :: post).Nodup → (∀ i ∈ pre, varIn m x i = none) →
    scopesIn m' (pre ++ t :: post) = unsetIn x (scopesIn m (pre ++ t :: post)) := by
  have hsame : ∀ i, i ≠ t → (fun y => (varIn m' y i).map Var.value) = fun y => (varIn m y i).map Var.value := by
    intro i hi
    funext y
    rw [hvar, if_neg (fun e => hi e.1)]
  induction pre with
  | nil =>
    intro hnd _
    simp only [List.nil_append, List.nodup_cons] at hnd ⊢
    show (fun y => (varIn m' y t).map Var.value) :: scopesIn m' post =
      unsetIn x ((fun y => (varIn m y t).map Var.value) :: scopesIn m post)
    rw [unsetIn, if_pos (by simpa using ht), show scopesIn m' post = scopesIn m post from
      List.map_congr_left fun i hi => hsame i fun e => hnd.1 (e ▸ hi)]
    congr 1
    funext y
    rw [hvar]
    unfold Scope.drop
    by_cases e : y = x <;> simp [e]
  | cons p pre ih =>
    intro hnd hpre
    rw [List.cons_append, List.nodup_cons] at hnd
    rw [List.cons_append]
    show (fun y => (varIn m' y p).map Var.value) :: scopesIn m' (pre ++ t :: post) =
      unsetIn x ((fun y => (varIn m y p).map Var.value) :: scopesIn m (pre ++ t :: post))
    rw [unsetIn, if_neg (by simp [hpre p List.mem_cons_self]), hsame p (fun e => hnd.1 (by simp [e])),
      ih hnd.2 fun i hi => hpre i (List.mem_cons_of_mem _ hi)]

theorem varIn_removed (m : CtxMgr) (t : Nat) (x y : Str) (i : Nat) :
    varIn (m.setCtx t ((m.heap t).removeVar x)) y i = if i = t ∧ y = x then none else varIn m y i := by
  unfold varIn CtxMgr.setCtx
  by_cases h : i = t
  · subst h
    simp only [if_true, true_and]
    by_cases e : y = x
    · rw [if_pos e, e]
      exact AMap.get_erase_self _ _
    · rw [if_neg e]
      exact AMap.get_erase_ne _ e
  · rw [if_neg (fun e => h e.1)]
    simp [h]

/-- What `unset` makes of the contexts. -/
theorem removeVar_scopes (m : CtxMgr) (hg : Good m) {x : Str} (hx : Unqualified x) (h1 : x ≠ cs!"PATH") (h2 : x ≠ cs!"PS1") :
    (m.removeVar x).stack = m.stack ∧ Widens m.stack m (m.removeVar x) ∧ Good (m.removeVar x) ∧
      scopesIn (m.removeVar x) m.stack = unsetIn x (scopesIn m m.stack) := by
  have hgood := (Shape.removeVar m x).good hg
  have hns : splitNs x = none := by
    unfold splitNs
    rw [if_neg]
    rw [unqualified_iff.1 hx]
    simp
  have he : m.removeVar x = match m.findCtx (fun c => (c.getVar x).isSome) with
      | some id => m.setCtx id ((m.heap id).removeVar x)
      | none => m := by
    unfold CtxMgr.removeVar
    rw [hns]
    rfl
  rcases hf : m.findCtx (fun c => (c.getVar x).isSome) with _ | t <;> rw [hf] at he <;> simp only at he <;> rw [he] at hgood ⊢
  · refine ⟨rfl, Widens.refl _ _, hgood, (unset_absent _ fun i hi => ?_).symm⟩
    exact Option.isNone_iff_eq_none.1 (show ((m.heap i).getVar x).isNone = true by simpa [-Option.isNone_iff_eq_none] using List.find?_eq_none.1 hf i hi)
  · obtain ⟨k1, pre, post, k2, k3⟩ := List.find?_eq_some_iff_append.1 hf
    have hvar := fun i y => varIn_removed m t x y i
    refine ⟨rfl, fun i hi => ⟨fun h => ?_, ?_, fun y b hb => ?_, fun f => ?_⟩, hgood, ?_⟩
    · rw [hvar, if_neg (fun e => h2 e.2.symm)]
      exact h
    · rw [hvar, if_neg (fun e => h1 e.2.symm)]
    · rw [hvar] at hb
      split at hb
      · cases hb
      · exact .inr hb
    · unfold funcIn CtxMgr.setCtx
      by_cases h : i = t
      · subst h
        simp [Ctx.removeVar]
      · simp [h]
    · rw [k2]
      refine unset_scopes hvar k1 pre (by rw [← k2]; exact hg.nodup) fun i hi => ?_
      exact Option.isNone_iff_eq_none.1 (show ((m.heap i).getVar x).isNone = true by simpa [-Option.isNone_iff_eq_none] using k3 i hi)

theorem CleanScopes.export {x v : Str} (hv : CleanValue v) : ∀ {l : List Scope}, CleanScopes l →
    CleanScopes (exportIn x v l)
  | [], h => h
  | [sc], h => by
    intro k hk y z hy hz
    simp only [exportIn, List.mem_cons, List.not_mem_nil, or_false] at hk
    subst hk
    unfold Scope.put at hz
    split at hz
    · cases hz; exact hv
    · exact h sc List.mem_cons_self y z hy hz
  | sc :: b :: rest, h => by
    rw [exportIn_cons (by simp)]
    intro k hk
    rcases List.mem_cons.1 hk with rfl | hk
    · exact h k List.mem_cons_self
    · exact CleanScopes.export hv (fun j hj => h j (List.mem_cons_of_mem _ hj)) k hk

theorem CleanScopes.unset {x : Str} : ∀ {l : List Scope}, CleanScopes l → CleanScopes (unsetIn x l)
  | [], h => h
  | sc :: rest, h => by
    rw [unsetIn]
    split
    · intro k hk y z hy hz
      rcases List.mem_cons.1 hk with rfl | hk
      · unfold Scope.drop at hz
        split at hz
        · cases hz
        · exact h sc List.mem_cons_self y z hy hz
      · exact h k (List.mem_cons_of_mem _ hk) y z hy hz
    · intro k hk
      rcases List.mem_cons.1 hk with rfl | hk
      · exact h k List.mem_cons_self
      · exact CleanScopes.unset (fun j hj => h j (List.mem_cons_of_mem _ hj)) k hk

end Rsh
