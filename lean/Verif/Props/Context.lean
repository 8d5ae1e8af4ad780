import Verif.Proofs.Context
import Verif.Spec.CtxOps
import Verif.Spec.Demo

/-!
# Properties C27-C32, C37, C38, C41, C42: variables, functions and contexts
-/

namespace Rsh

open Spec

/-! ## C27 -/

/-- C27, the part that holds: trimming is total, takes off exactly one pair of matching outer quotes
when the text has one, and leaves every other text unchanged.  Missing: a text that is one lone quote
character (`C27_lone`). -/
theorem C27_trim_partial (v : Str) (h : ¬ LoneQuote v) :
    (∀ q ∈ quotes, ∀ t, v = q :: (t ++ [q]) → trimQuotes v = t) ∧
    ((∀ q ∈ quotes, ∀ t, v ≠ q :: (t ++ [q])) → trimQuotes v = v) :=
  ⟨fun q hq _ e => trimQuotes_unquoted (.inl ⟨q, hq, e⟩) h,
   fun hn => trimQuotes_unquoted (.inr ⟨hn, rfl⟩) h⟩

/-- C27 fails for a lone quote character: it disappears although nothing matches it. -/
theorem C27_lone (v : Str) (h : LoneQuote v) :
    (∀ q ∈ quotes, ∀ t, v ≠ q :: (t ++ [q])) ∧ trimQuotes v = [] ∧ v ≠ [] := by
  obtain ⟨q, hq, rfl⟩ := h
  refine ⟨?_, ?_, by simp⟩
  · intro r _ t e
    have := congrArg List.length e
    simp at this
  · simp only [quotes, List.mem_cons, List.not_mem_nil, or_false] at hq
    rcases hq with rfl | rfl <;> rfl

/-- The lone quote is reachable: `export 'X="'` sets `X` to the empty text. -/
theorem C27_counterexample : valueOf (demo [cs!"export 'X=\"'"]) (cs!"X") = some [] := by
  decide +kernel

example : ¬ LoneQuote (cs!"'a b'") ∧ trimQuotes (cs!"'a b'") = cs!"a b" ∧
    trimQuotes (cs!"'a\"") = cs!"'a\"" ∧ trimQuotes (cs!"''x''") = cs!"'x'" := by
  refine ⟨?_, rfl, rfl, rfl⟩
  rintro ⟨q, _, e⟩
  simp at e

/-! ## C28 -/

/-- C28: looking up an unqualified name yields the binding of the innermost context that has one, and
nothing if no context on the stack has one; and that determines the result. -/
theorem C28_innermost (m : CtxMgr) (x : Str) (hx : Unqualified x) :
    Innermost (varIn m x) m.stack (m.getVar x) ∧
    ∀ o, Innermost (varIn m x) m.stack o → m.getVar x = o := by
  rw [CtxMgr.getVar_unqualified m hx]
  exact ⟨CtxMgr.innermost_findSome _ _, fun o h => CtxMgr.innermost_unique h⟩

/-- Two contexts, the inner one hiding a variable of the outer one. -/
def twoCtx : CtxMgr where
  heap i := if i = 0 then { vars := [(cs!"X", ⟨cs!"outer", false⟩), (cs!"Y", ⟨cs!"y", true⟩)] }
    else { vars := [(cs!"X", ⟨cs!"inner", false⟩)] }
  next := 2
  stack := [1, 0]
  exported := [(cs!"ns", 0)]

theorem unqualified_iff {x : Str} : Unqualified x ↔ hasSub (cs!"::") x = false := by
  rw [hasSub_false]
  constructor
  · intro h a b e; exact h a b (by simpa using e)
  · intro h a b e; exact h a b (by simpa using e)

example : Unqualified (cs!"X") ∧ (twoCtx.getVar (cs!"X")).map Var.value = some (cs!"inner") ∧
    (twoCtx.getVar (cs!"Y")).map Var.value = some (cs!"y") ∧ twoCtx.getVar (cs!"Z") = none :=
  ⟨unqualified_iff.2 rfl, rfl, rfl, rfl⟩

/-! ## C29 -/

/-- C29: an assignment to a name that is not read-only succeeds.  It goes to the innermost context
that has the name, or else to the current context; there it sets the value without its outer quotes;
nothing else changes in any context.  Hence the name then has that value, and the lookup of every
other name, unqualified or in a namespace, of every function and of the same name in every namespace
that does not share the context are as before. -/
theorem C29_assign (m : CtxMgr) (x v u : Str) (hx : Name x) (hv : '=' ∉ v) (hu : Unquoted v u)
    (hl : ¬ LoneQuote v) (hs : m.stack ≠ [])
    (hro : ∀ b, m.getVar x = some b → b.readonly = false) :
    ∃ m' t pre post, m.addVar (x ++ '=' :: v) = some m' ∧
      m.stack = pre ++ t :: post ∧ (∀ i ∈ pre, varIn m x i = none) ∧
      ((varIn m x t).isSome = true ∨ (pre = [] ∧ ∀ i ∈ m.stack, varIn m x i = none)) ∧
      m'.stack = m.stack ∧ m'.exported = m.exported ∧ m'.next = m.next ∧
      (∀ i y, varIn m' y i = if i = t ∧ y = x then some { value := u } else varIn m y i) ∧
      (∀ i y, funcIn m' y i = funcIn m y i) ∧
      m'.getVar x = some { value := u } ∧
      (∀ y, Unqualified y → y ≠ x → m'.getVar y = m.getVar y) ∧
      (∀ ns y, Unqualified (ns ++ [':']) → Unqualified y → (y ≠ x ∨ m.exported.lookup ns ≠ some t) →
        m'.getVar (ns ++ ':' :: ':' :: y) = m.getVar (ns ++ ':' :: ':' :: y)) ∧
      (∀ f, m'.getFunction f = m.getFunction f) :=
  CtxMgr.assign_spec m x v u hx.2.1 hx.2.2.1 (CtxMgr.keyOk_name hx _) hv hu hl hs hro

example : Name (cs!"X") ∧ Unquoted (cs!"'new v'") (cs!"new v") ∧ twoCtx.stack ≠ [] ∧
    ((twoCtx.addVar (cs!"X='new v'")).bind (·.getVar (cs!"X"))).map Var.value = some (cs!"new v") ∧
    ((twoCtx.addVar (cs!"X='new v'")).bind (·.getVar (cs!"ns::X"))).map Var.value = some (cs!"outer") := by
  refine ⟨⟨by decide, by decide, unqualified_iff.2 rfl, rfl⟩, .inl ⟨'\'', by simp [quotes], rfl⟩,
    by decide, rfl, rfl⟩

/-! ## C30 -/

/-- C30, the part that holds: the value a successful assignment leaves behind is the text after the
first `=` up to the next `=`, outer quotes removed; so a value without `=` is kept completely.
Missing: values that contain `=` (`C30_counterexample`). -/
theorem C30_value_partial (m : CtxMgr) (x v : Str) (hx : Name x) (hs : m.stack ≠ [])
    (hro : ∀ b, m.getVar x = some b → b.readonly = false) :
    ∃ m', m.addVar (x ++ '=' :: v) = some m' ∧
      m'.getVar x = some { value := trimQuotes (v.takeWhile (fun c => decide (c ≠ '='))) } ∧
      ('=' ∉ v → (∀ q ∈ quotes, v.head? ≠ some q) → m'.getVar x = some { value := v }) := by
  have hx2 := hx.2.1
  have hxu := hx.2.2.1
  have hro' : ∀ b, m.stack.findSome? (varIn m x) = some b → b.readonly = false := by
    rw [← CtxMgr.getVar_unqualified m hxu]; exact hro
  obtain ⟨t, ht, pre, post, hst, hpre, htt⟩ := CtxMgr.target_spec (x := x) hs
  have hadd := CtxMgr.addVar_eq (v := v) hx2 hro'
  have hset : (m.heap t).addSet (x ++ '=' :: v) = some ((m.heap t).addVarStruct x
      { value := trimQuotes (v.takeWhile (fun c => decide (c ≠ '='))) }) := by
    unfold Ctx.addSet
    rw [splitSet_eq _ _ hx2]
    simp only [CtxMgr.keyOk_name hx _, if_true]
  rw [ht, Option.bind_some, hset, Option.map_some] at hadd
  have hval : ∀ w, (m.setCtx t ((m.heap t).addVarStruct x w)).getVar x = some w := by
    intro w
    have hvar := fun i y => CtxMgr.varIn_setVar m t x y w i
    rw [CtxMgr.getVar_unqualified _ hxu]
    apply CtxMgr.innermost_unique
    refine ⟨pre, t, post, hst, fun i hi => ?_, by simp [hvar]⟩
    rw [hvar]
    by_cases hit : i = t
    · subst hit
      rcases htt with h | ⟨rfl, _⟩
      · rw [hpre i hi] at h; cases h
      · simp at hi
    · simp [hit, hpre i hi]
  refine ⟨_, hadd, hval _, fun hv hq => ?_⟩
  rw [hval, takeWhile_none hv, trimQuotes_unquoted (.inr ⟨?_, rfl⟩) ?_]
  · intro q hqq t e; exact hq q hqq (by rw [e]; rfl)
  · rintro ⟨q, hqq, e⟩; exact hq q hqq (by rw [e]; rfl)

/-- C30 fails: `X='a=b'` gives `X` the value `'a`, and `export 'X=a=b'` the value `a`. -/
theorem C30_counterexample : valueOf (demo [cs!"X='a=b'"]) (cs!"X") = some (cs!"'a") ∧
    valueOf (demo [cs!"export 'X=a=b'"]) (cs!"X") = some (cs!"a") := by
  decide +kernel

example : valueOf (demo [cs!"X=a,b/c"]) (cs!"X") = some (cs!"a,b/c") := by decide +kernel

/-! ## C31 -/

theorem addSet_var_ne {c c' : Ctx} {set y : Str} (h : c.addSet set = some c')
    (hy : y ≠ CtxMgr.setName set) : c'.vars.lookup y = c.vars.lookup y := by
  unfold Ctx.addSet at h
  have hn := splitSet_fst set
  rcases hs : splitSet set with ⟨n, v⟩
  rw [hs] at h hn
  simp only at h hn
  subst hn
  split at h
  · simp only [Option.some.injEq] at h
    rw [← h]
    exact AMap.get_insert_ne c.vars _ hy
  · cases h

/-- One step of `C31_readonly_partial`. -/
theorem readonly_step (m m' : CtxMgr) (o : CtxOp) (i : Nat) (x v : Str) (h : o.run m = some m')
    (hi : i < m.next) (hro : varIn m x i = some ⟨v, true⟩) :
    i < m'.next ∧ varIn m' x i = some ⟨v, true⟩ := by
  cases o with
  | assign set =>
    simp only [CtxOp.run] at h
    unfold CtxMgr.addVar at h
    simp only at h
    have key : ∀ t, ((m.heap t).addSet set).map (m.setCtx t) = some m' →
        (i = t → x ≠ CtxMgr.setName set) → i < m'.next ∧ varIn m' x i = some ⟨v, true⟩ := by
      intro t ht hne
      rw [Option.map_eq_some_iff] at ht
      obtain ⟨c, hc, rfl⟩ := ht
      refine ⟨hi, ?_⟩
      unfold varIn at hro ⊢
      rw [CtxMgr.setCtx_heap]
      split
      · next e => subst e; rw [addSet_var_ne hc (hne rfl)]; exact hro
      · exact hro
    split at h
    · next t ht =>
      obtain ⟨h1, _⟩ := CtxMgr.findCtx_some ht
      split at h
      · next b hb =>
        split at h
        · cases h; exact ⟨hi, hro⟩
        · next hr =>
          refine key t h ?_
          rintro rfl rfl
          have : varIn m (CtxMgr.setName set) i = some b := hb
          rw [hro] at this
          cases this
          exact hr rfl
      · cases h; exact ⟨hi, hro⟩
    · next hn =>
      rw [Option.bind_eq_some_iff] at h
      obtain ⟨t, hcur, h⟩ := h
      refine key t h ?_
      rintro rfl rfl
      have := CtxMgr.findCtx_none hn i (List.mem_of_head? hcur)
      have e : (m.heap i).getVar (CtxMgr.setName set) = varIn m (CtxMgr.setName set) i := rfl
      rw [e, hro] at this
      cases this
  | push =>
    cases h
    refine ⟨Nat.lt_succ_of_lt hi, ?_⟩
    unfold varIn CtxMgr.pushNew at *
    simp only
    rw [if_neg (Nat.ne_of_lt hi)]; exact hro
  | pop =>
    simp only [CtxOp.run, Option.map_eq_some_iff] at h
    obtain ⟨⟨id, m1⟩, hp, rfl⟩ := h
    unfold CtxMgr.pop at hp
    split at hp
    · cases hp; exact ⟨hi, hro⟩
    · cases hp
  | define n b =>
    simp only [CtxOp.run, Option.some.injEq] at h
    subst h
    have hvf : ∀ t, varIn (m.setCtx t ((m.heap t).addFunction n b).1) x i = varIn m x i := by
      intro t
      unfold varIn
      rw [CtxMgr.setCtx_heap]
      split
      · next e => subst e; unfold Ctx.addFunction; split <;> rfl
      · rfl
    unfold CtxMgr.addFunction
    split
    · exact ⟨hi, by rw [hvf]; exact hro⟩
    · split
      · exact ⟨hi, by rw [hvf]; exact hro⟩
      · exact ⟨hi, hro⟩
  | undefine n =>
    simp only [CtxOp.run, Option.some.injEq] at h
    subst h
    have hvf : ∀ t n, varIn (m.setCtx t ((m.heap t).removeFunction n)) x i = varIn m x i := by
      intro t n
      unfold varIn
      rw [CtxMgr.setCtx_heap]
      split
      · next e => subst e; rfl
      · rfl
    unfold CtxMgr.removeFunction
    split
    · split
      · exact ⟨hi, by rw [hvf]; exact hro⟩
      · exact ⟨hi, hro⟩
    · split
      · exact ⟨hi, by rw [hvf]; exact hro⟩
      · exact ⟨hi, hro⟩
  | name ns id => cases h; exact ⟨hi, hro⟩
  | unname ns => cases h; exact ⟨hi, hro⟩
  | mark y =>
    simp only [CtxOp.run] at h
    have key : ∀ t y, m.markReadonly t y = some m' → i < m'.next ∧ varIn m' x i = some ⟨v, true⟩ := by
      intro t y hm
      unfold CtxMgr.markReadonly at hm
      rw [Option.map_eq_some_iff] at hm
      obtain ⟨b, hb, rfl⟩ := hm
      refine ⟨hi, ?_⟩
      rw [CtxMgr.varIn_setVar]
      split
      · next hc =>
        obtain ⟨rfl, rfl⟩ := hc
        have : varIn m x i = some b := hb
        rw [hro] at this
        cases this; rfl
      · exact hro
    unfold CtxMgr.setVarReadonly at h
    split at h
    · split at h
      · exact key _ _ h
      · cases h; exact ⟨hi, hro⟩
    · split at h
      · exact key _ _ h
      · rw [Option.bind_eq_some_iff] at h
        obtain ⟨t, _, h⟩ := h
        exact key _ _ h

/-- C31, the part that holds: no sequence of assignments (in any context), function calls and
returns, function definitions and removals, naming and unnaming of contexts and further `readonly
NAME` changes or removes a read-only variable.  Missing: `readonly
NAME=value`, `export NAME=value` and `unset NAME` (`C31_counterexample`). -/
theorem C31_readonly_partial (os : List CtxOp) : ∀ (m m' : CtxMgr) (i : Nat) (x v : Str),
    runOps m os = some m' → i < m.next →
    varIn m x i = some ⟨v, true⟩ → varIn m' x i = some ⟨v, true⟩ := by
  induction os with
  | nil => intro m m' i x v h _ hro; cases h; exact hro
  | cons o os ih =>
    intro m m' i x v h hi hro
    simp only [runOps, Option.bind_eq_some_iff] at h
    obtain ⟨m1, h1, h2⟩ := h
    obtain ⟨hi1, hro1⟩ := readonly_step m m1 o i x v h1 hi hro
    exact ih m1 m' i x v h2 hi1 hro1

/-- C31 fails: each of `readonly X=2`, `unset X` and (for an exported variable) `export X=2` changes
or removes a read-only variable. -/
theorem C31_counterexample :
    valueOf (demo [cs!"readonly X=1", cs!"X=2"]) (cs!"X") = some (cs!"1") ∧
    valueOf (demo [cs!"readonly X=1", cs!"readonly X=2"]) (cs!"X") = some (cs!"2") ∧
    valueOf (demo [cs!"readonly X=1", cs!"unset X"]) (cs!"X") = none ∧
    valueOf (demo [cs!"export X=0", cs!"readonly X=1", cs!"export X=2"]) (cs!"X") = some (cs!"2") := by
  decide +kernel

example : varIn twoCtx (cs!"Y") 0 = some ⟨cs!"y", true⟩ ∧ 0 < twoCtx.next ∧
    (runOps twoCtx [.assign (cs!"Y=1"), .push, .assign (cs!"Y=2"), .pop, .mark (cs!"X")]).isSome
      = true := ⟨rfl, by decide, rfl⟩

end Rsh
