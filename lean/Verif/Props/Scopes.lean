import Verif.Proofs.Digits
import Verif.Props.Context

/-!
# Properties C32, C37, C38, C41, C42: positional names, namespaces, unset, functions
-/

namespace Rsh

open Spec

/-! ## C32 -/

theorem addSet_some {c : Ctx} {set : Str} (h : keyOk set = true) :
    ∃ c', c.addSet set = some c' := by
  unfold Ctx.addSet
  rcases splitSet set with ⟨n, v⟩
  simp [h]

theorem addSet_none {c : Ctx} {set : Str} (h : keyOk set = false) : c.addSet set = none := by
  unfold Ctx.addSet
  rcases splitSet set with ⟨n, v⟩
  simp [h]

theorem natStr_no_eq (i : Nat) : '=' ∉ natStr i := natStr_not_mem rfl

theorem atPos_zero {m : CtxMgr} (h : m.stack ≠ []) : ∃ id, m.atPos 0 = some id := by
  unfold CtxMgr.atPos
  rcases hr : m.stack.reverse with _ | ⟨a, l⟩
  · exact absurd (List.reverse_eq_nil_iff.1 hr) h
  · exact ⟨a, rfl⟩

/-- C32, the part that holds: setting positional parameter `i` to a text, for the whole script or in
a function call, is accepted when the position and the text have at most 19 digits together.
Missing: texts with more digits, `C32_crash`. -/
theorem C32_accepted_partial (s : Sh) (i : Nat) (t : Str) (hs : s.ctx.stack ≠ [])
    (hd : (natStr i).length + (t.filter isDigit10).length ≤ 19) :
    outcome (setInputArgs t i s).1 = .ok ∧
    outcome (addVarContext (natStr i ++ '=' :: t) s).1 = .ok := by
  have hk : keyOk (natStr i ++ '=' :: t) = true := by
    apply keyOk_natStr_few
    rw [List.filter_cons_of_neg (by decide)]; exact hd
  constructor
  · obtain ⟨id, hid⟩ := atPos_zero hs
    obtain ⟨c, hc⟩ := addSet_some (c := s.ctx.heap id) hk
    have e : s.ctx.addVarPos (natStr i ++ '=' :: t) 0 = some (s.ctx.setCtx id c) := by
      simp [CtxMgr.addVarPos, hid, hc]
    simp [setInputArgs, addVarAt, e, setCtxMgr, outcome]
  · have : ∃ m', s.ctx.addVar (natStr i ++ '=' :: t) = some m' := by
      unfold CtxMgr.addVar
      simp only
      split
      · split
        · split
          · exact ⟨_, rfl⟩
          · next _ id _ _ _ _ _ =>
            obtain ⟨c, hc⟩ := addSet_some (c := s.ctx.heap id) hk
            exact ⟨s.ctx.setCtx id c, by rw [hc]; rfl⟩
        · exact ⟨_, rfl⟩
      · rcases hst : s.ctx.stack with _ | ⟨a, l⟩
        · exact absurd hst hs
        · obtain ⟨c, hc⟩ := addSet_some (c := s.ctx.heap a) hk
          exact ⟨s.ctx.setCtx a c, by simp [CtxMgr.current, hst, hc]⟩
    obtain ⟨m', e⟩ := this
    simp [addVarContext, e, setCtxMgr, outcome]

/-- C32 fails: a text with twenty or more digits crashes the shell, in whatever state, as a script
argument and (unless the position is read-only) as an argument of a function. -/
theorem C32_crash (s : Sh) (i : Nat) (t : Str) (hi : 1 ≤ i)
    (hd : 20 ≤ (t.filter isDigit10).length) :
    outcome (setInputArgs t i s).1 = .panic .unwrap ∧
    ((∀ b, s.ctx.getVar (natStr i) = some b → b.readonly = false) →
      outcome (addVarContext (natStr i ++ '=' :: t) s).1 = .panic .unwrap) := by
  have hk : keyOk (natStr i ++ '=' :: t) = false := by
    apply keyOk_natStr_many _ _ hi
    rw [List.filter_cons_of_neg (by decide)]; exact hd
  constructor
  · have e : s.ctx.addVarPos (natStr i ++ '=' :: t) 0 = none := by
      unfold CtxMgr.addVarPos
      cases s.ctx.atPos 0 with
      | none => rfl
      | some id => simp [addSet_none hk]
    simp [setInputArgs, addVarAt, e, outcome]
  · intro hro
    have e : s.ctx.addVar (natStr i ++ '=' :: t) = none := by
      rw [CtxMgr.addVar_eq (natStr_no_eq i)]
      · cases s.ctx.target (natStr i) with
        | none => rfl
        | some id => simp [addSet_none hk]
      · rw [← CtxMgr.getVar_unqualified _ (natStr_unqualified i)]; exact hro
    simp [addVarContext, e, outcome]

/-- C32 fails at the prompt. -/
theorem C32_counterexample :
    outcome (demoOut [cs!"f() { X=1; }", cs!"f 1234567890123456789"]) = .ok ∧
    outcome (demoOut [cs!"f() { X=1; }", cs!"f 12345678901234567890"]) = .panic .unwrap := by
  decide +kernel

/-! ## C37 -/

/-- C37: an unqualified name is looked up on the stack only, whatever contexts are exported; `ns::x`
is looked up only in the context exported as `ns`, whatever is on the stack; an unknown namespace
has no names.  The same holds for functions. -/
theorem C37_namespaces (m : CtxMgr) (x ns : Str) (hx : Unqualified x)
    (hns : Unqualified (ns ++ [':'])) :
    (∀ ex, ({ m with exported := ex } : CtxMgr).getVar x = m.getVar x ∧
      ({ m with exported := ex } : CtxMgr).getFunction x = m.getFunction x) ∧
    (∀ st, ({ m with stack := st } : CtxMgr).getVar (ns ++ ':' :: ':' :: x)
        = m.getVar (ns ++ ':' :: ':' :: x)) ∧
    (∀ id, m.exported.lookup ns = some id →
      m.getVar (ns ++ ':' :: ':' :: x) = varIn m x id ∧
      m.getFunction (ns ++ ':' :: ':' :: x) = funcIn m x id) ∧
    (m.exported.lookup ns = none →
      m.getVar (ns ++ ':' :: ':' :: x) = none ∧
      m.getFunction (ns ++ ':' :: ':' :: x) = none) ∧
    (∀ ex st, (∀ y, ex.lookup y = if y = ns then m.exported.lookup ns else none) →
      ({ m with exported := ex, stack := st } : CtxMgr).getFunction (ns ++ ':' :: ':' :: x)
        = m.getFunction (ns ++ ':' :: ':' :: x)) := by
  refine ⟨fun ex => ?_, fun st => ?_, fun id h => ?_, fun h => ?_, fun ex st h => ?_⟩
  · rw [CtxMgr.getVar_unqualified _ hx, CtxMgr.getVar_unqualified _ hx,
      CtxMgr.getFunction_unqualified _ hx, CtxMgr.getFunction_unqualified _ hx]
    exact ⟨rfl, rfl⟩
  · rw [CtxMgr.getVar_qualified _ hns hx, CtxMgr.getVar_qualified _ hns hx]; rfl
  · rw [CtxMgr.getVar_qualified _ hns hx, CtxMgr.getFunction_qualified _ hns hx, h]
    exact ⟨rfl, rfl⟩
  · rw [CtxMgr.getVar_qualified _ hns hx, CtxMgr.getFunction_qualified _ hns hx, h]
    exact ⟨rfl, rfl⟩
  · rw [CtxMgr.getFunction_qualified _ hns hx, CtxMgr.getFunction_qualified _ hns hx]
    show (ex.lookup ns).bind _ = _
    rw [h ns, if_pos rfl]; rfl

example : Unqualified (cs!"X") ∧ Unqualified (cs!"ns" ++ [':']) ∧
    twoCtx.exported.lookup (cs!"ns") = some 0 ∧
    (twoCtx.getVar (cs!"ns::X")).map Var.value = some (cs!"outer") :=
  ⟨unqualified_iff.2 rfl, unqualified_iff.2 rfl, rfl, rfl⟩

/-! ## C38 -/

theorem runOps_exported {ns : Str} (os : List CtxOp) : ∀ (m m' : CtxMgr),
    runOps m os = some m' → (∀ o ∈ os, o.renames ns = false) →
    m'.exported.lookup ns = m.exported.lookup ns := by
  induction os with
  | nil => intro m m' h _; cases h; rfl
  | cons o os ih =>
    intro m m' h hr
    simp only [runOps, Option.bind_eq_some_iff] at h
    obtain ⟨m1, h1, h2⟩ := h
    rw [ih m1 m' h2 (fun p hp => hr p (List.mem_cons_of_mem _ hp))]
    have hro := hr o List.mem_cons_self
    cases o with
    | assign set =>
      simp only [CtxOp.run] at h1
      unfold CtxMgr.addVar at h1
      simp only at h1
      split at h1
      · split at h1
        · split at h1
          · cases h1; rfl
          · rw [Option.map_eq_some_iff] at h1; obtain ⟨_, _, rfl⟩ := h1; rfl
        · cases h1; rfl
      · rw [Option.bind_eq_some_iff] at h1
        obtain ⟨_, _, h1⟩ := h1
        rw [Option.map_eq_some_iff] at h1; obtain ⟨_, _, rfl⟩ := h1; rfl
    | push => cases h1; rfl
    | pop =>
      simp only [CtxOp.run, Option.map_eq_some_iff] at h1
      obtain ⟨⟨id, m1⟩, hp, rfl⟩ := h1
      unfold CtxMgr.pop at hp
      split at hp
      · cases hp; rfl
      · cases hp
    | define n b =>
      simp only [CtxOp.run, Option.some.injEq] at h1
      subst h1
      unfold CtxMgr.addFunction
      split
      · rfl
      · split <;> rfl
    | undefine n =>
      simp only [CtxOp.run, Option.some.injEq] at h1
      subst h1
      unfold CtxMgr.removeFunction
      split
      · split <;> rfl
      · split <;> rfl
    | name ns' id =>
      cases h1
      simp only [CtxOp.renames, beq_eq_false_iff_ne] at hro
      exact AMap.get_insert_ne m.exported id (Ne.symm hro)
    | unname ns' =>
      cases h1
      simp only [CtxOp.renames, beq_eq_false_iff_ne] at hro
      exact AMap.get_erase_ne m.exported (Ne.symm hro)
    | mark y =>
      simp only [CtxOp.run] at h1
      have key : ∀ t y, m.markReadonly t y = some m1 → m1.exported.lookup ns = m.exported.lookup ns := by
        intro t y hm
        unfold CtxMgr.markReadonly at hm
        rw [Option.map_eq_some_iff] at hm
        obtain ⟨b, hb, rfl⟩ := hm; rfl
      unfold CtxMgr.setVarReadonly at h1
      split at h1
      · split at h1
        · exact key _ _ h1
        · cases h1; rfl
      · split at h1
        · exact key _ _ h1
        · rw [Option.bind_eq_some_iff] at h1
          obtain ⟨t, _, h1⟩ := h1
          exact key _ _ h1

/-- C38: `export context ns=self` succeeds and changes nothing but the namespace table.  From then on,
after any sequence of assignments, function calls and definitions and namings of other contexts, an
assignment that goes to that context is visible as `ns::name`. -/
theorem C38_shares (w : World) (rec : List AndOr → M Int) (c : SimpleCommand) (s : Sh) (ns : Str)
    (cur : Nat) (rest : List Nat)
    (hc : c.words = [cs!"context", ns ++ cs!"=self"]) (heq : '=' ∉ ns)
    (hst : s.ctx.stack = cur :: rest) :
    ∃ s1, bExport w rec c s = (.ok (), s1) ∧
      s1 = { s with ctx := { s.ctx with exported := s1.ctx.exported } } ∧
      s1.ctx.exported.lookup ns = some cur ∧
      (∀ n, n ≠ ns → s1.ctx.exported.lookup n = s.ctx.exported.lookup n) ∧
      ∀ (os : List CtxOp) (m2 m3 : CtxMgr) (x v u : Str),
        runOps s1.ctx os = some m2 → (∀ o ∈ os, o.renames ns = false) →
        Unqualified (ns ++ [':']) → Name x → '=' ∉ v → Unquoted v u → ¬ LoneQuote v →
        (∀ b, m2.getVar x = some b → b.readonly = false) →
        (∃ pre post, m2.stack = pre ++ cur :: post ∧ (∀ i ∈ pre, varIn m2 x i = none) ∧
          ((varIn m2 x cur).isSome = true ∨ pre = [] ∧ ∀ i ∈ m2.stack, varIn m2 x i = none)) →
        m2.addVar (x ++ '=' :: v) = some m3 →
        (m3.getVar (ns ++ ':' :: ':' :: x)).map Var.value = some u := by
  have hsplit : splitSet (ns ++ cs!"=self") = (ns, cs!"self") := by
    have := splitSet_eq ns (cs!"self") heq
    simpa using this
  have hrun : bExport w rec c s = (.ok (), { s with ctx := s.ctx.addContext ns cur }) := by
    unfold bExport
    rw [hc]
    have h1 : hasSub (cs!"-p") (cs!"context") = false := by decide
    simp only [h1, Bool.false_eq_true, if_false, if_true]
    unfold exportContext
    have h2 : hasChar '=' (ns ++ cs!"=self") = true := by rw [hasChar_iff]; simp
    simp [CtxMgr.current, hst, h2, hsplit, addContextM, setCtxMgr]
  refine ⟨_, hrun, rfl, AMap.get_insert_self .., fun n hn => AMap.get_insert_ne _ _ hn, ?_⟩
  intro os m2 m3 x v u hos hren hns hx hv hu hl hro hpos hadd
  obtain ⟨pre, post, e1, hpre, hor⟩ := hpos
  obtain ⟨m', t, pre', post', hadd', e2, hpre', hor', _, hex, _, hvar, _⟩ :=
    C29_assign m2 x v u hx hv hu hl (by rw [e1]; simp) hro
  rw [hadd] at hadd'
  cases hadd'
  have htc : t = cur := by
    rcases hor with h | ⟨rfl, h⟩
    · rcases hor' with h' | ⟨rfl, h'⟩
      · -- both are the innermost context that has `x`
        rw [e1] at e2
        rcases List.append_eq_append_iff.1 e2 with ⟨a, ha, hb⟩ | ⟨a, ha, hb⟩
        · cases a with
          | nil => simp at hb; exact hb.1.symm
          | cons d a =>
            simp only [List.cons_append, List.cons.injEq] at hb
            have := hpre' cur (by rw [ha, hb.1]; simp)
            rw [this] at h; cases h
        · cases a with
          | nil => simp at hb; exact hb.1
          | cons d a =>
            simp only [List.cons_append, List.cons.injEq] at hb
            have := hpre t (by rw [ha, hb.1]; simp)
            rw [this] at h'; cases h'
      · have := h' cur (by rw [e1]; simp)
        rw [this] at h; cases h
    · rcases hor' with h' | ⟨rfl, h'⟩
      · have := h t (by rw [e2]; simp)
        rw [this] at h'; cases h'
      · rw [e1] at e2; simp at e2; exact e2.1.symm
  subst htc
  rw [CtxMgr.getVar_qualified _ hns hx.2.2.1, hex, runOps_exported os _ _ hos hren]
  have : ({ s with ctx := s.ctx.addContext ns t } : Sh).ctx.exported.lookup ns = some t :=
    AMap.get_insert_self ..
  rw [this, Option.bind_some, hvar]
  simp

example : valueOf (demo [cs!"export context me=self", cs!"X=1", cs!"X=2"]) (cs!"me::X")
    = some (cs!"2") := by decide +kernel

/-! ## C41 -/

/-- What `removeVar` does to each context. -/
theorem removeVar_at {m : CtxMgr} {x : Str} {t : Nat} (hx : Unqualified x)
    (hf : m.findCtx (fun c => (c.getVar x).isSome) = some t) :
    (∀ i y, varIn (m.removeVar x) y i = if i = t ∧ y = x then none else varIn m y i) ∧
    (∀ i y, funcIn (m.removeVar x) y i = funcIn m y i) ∧
    (m.removeVar x).stack = m.stack ∧ (m.removeVar x).exported = m.exported := by
  have hrm : m.removeVar x = m.setCtx t ((m.heap t).removeVar x) := by
    unfold CtxMgr.removeVar
    rw [splitNs_unqualified hx]
    simp only [hf]
  rw [hrm]
  refine ⟨fun i y => ?_, fun i y => ?_, rfl, rfl⟩
  · unfold varIn
    rw [CtxMgr.setCtx_heap]
    by_cases h : i = t
    · subst h
      simp only [if_true, Ctx.removeVar]
      have := AMap.get_erase (m.heap i).vars y x
      unfold AMap.get at this
      rw [this]
      by_cases hy : y = x <;> simp [hy]
    · simp [h]
  · unfold funcIn
    rw [CtxMgr.setCtx_heap]
    by_cases h : i = t
    · subst h; simp [Ctx.removeVar]
    · simp [h]

/-- What `removeFunction` does to each context. -/
theorem removeFunction_at {m : CtxMgr} {x : Str} {t : Nat} (hx : Unqualified x)
    (hf : m.findCtx (fun c => (c.getFunction x).isSome) = some t) :
    (∀ i y, funcIn (m.removeFunction x) y i = if i = t ∧ y = x then none else funcIn m y i) ∧
    (∀ i y, varIn (m.removeFunction x) y i = varIn m y i) ∧
    (m.removeFunction x).stack = m.stack ∧ (m.removeFunction x).exported = m.exported := by
  have hrm : m.removeFunction x = m.setCtx t ((m.heap t).removeFunction x) := by
    unfold CtxMgr.removeFunction
    rw [splitNs_unqualified hx]
    simp only [hf]
  rw [hrm]
  refine ⟨fun i y => ?_, fun i y => ?_, rfl, rfl⟩
  · unfold funcIn
    rw [CtxMgr.setCtx_heap]
    by_cases h : i = t
    · subst h
      simp only [if_true, Ctx.removeFunction]
      have := AMap.get_erase (m.heap i).funcs y x
      unfold AMap.get at this
      rw [this]
      by_cases hy : y = x <;> simp [hy]
    · simp [h]
  · unfold varIn
    rw [CtxMgr.setCtx_heap]
    by_cases h : i = t
    · subst h; simp [Ctx.removeFunction]
    · simp [h]

/-- C41, the part about variables: `unset NAME` removes the innermost binding, so the next outer one
(or none) becomes visible; nothing else changes.  Missing: the process environment keeps `NAME`
(`C41_counterexample`). -/
theorem C41_unset_partial (m : CtxMgr) (x : Str) (pre post : List Nat) (t : Nat) (hx : Unqualified x)
    (hnd : m.stack.Nodup) (hst : m.stack = pre ++ t :: post) (hpre : ∀ i ∈ pre, varIn m x i = none)
    (ht : (varIn m x t).isSome = true) :
    Innermost (varIn m x) post ((m.removeVar x).getVar x) ∧
    (∀ i y, varIn (m.removeVar x) y i = if i = t ∧ y = x then none else varIn m y i) ∧
    (∀ y, Unqualified y → y ≠ x → (m.removeVar x).getVar y = m.getVar y) ∧
    (∀ i y, funcIn (m.removeVar x) y i = funcIn m y i) ∧
    (m.removeVar x).stack = m.stack ∧ (m.removeVar x).exported = m.exported := by
  have hf : m.findCtx (fun c => (c.getVar x).isSome) = some t := by
    unfold CtxMgr.findCtx
    rw [List.find?_eq_some_iff_append]
    refine ⟨ht, pre, post, hst, fun i hi => ?_⟩
    have : (m.heap i).getVar x = none := hpre i hi
    simp [this]
  have hrm : m.removeVar x = m.setCtx t ((m.heap t).removeVar x) := by
    unfold CtxMgr.removeVar
    rw [splitNs_unqualified hx]
    simp only [hf]
  have hvar : ∀ i y, varIn (m.removeVar x) y i = if i = t ∧ y = x then none else varIn m y i := by
    intro i y
    rw [hrm]
    unfold varIn
    rw [CtxMgr.setCtx_heap]
    by_cases h : i = t
    · subst h
      simp only [if_true, Ctx.removeVar]
      have := AMap.get_erase (m.heap i).vars y x
      unfold AMap.get at this
      rw [this]
      by_cases hy : y = x <;> simp [hy]
    · simp [h]
  refine ⟨?_, hvar, ?_, ?_, by rw [hrm]; rfl, by rw [hrm]; rfl⟩
  · rw [CtxMgr.getVar_unqualified _ hx]
    have hst' : (m.removeVar x).stack = pre ++ t :: post := by rw [hrm]; exact hst
    rw [hst', List.findSome?_append]
    have h1 : pre.findSome? (varIn (m.removeVar x) x) = none := by
      rw [List.findSome?_eq_none_iff]
      intro i hi
      rw [hvar]; split
      · rfl
      · exact hpre i hi
    rw [h1, Option.none_or, List.findSome?_cons, hvar]
    simp only [true_and, if_true]
    have h2 : post.findSome? (varIn (m.removeVar x) x) = post.findSome? (varIn m x) := by
      rw [hst] at hnd
      have hnp : t ∉ post := by
        have := (List.nodup_append.1 hnd).2.1
        exact (List.nodup_cons.1 this).1
      have : ∀ l : List Nat, t ∉ l →
          l.findSome? (varIn (m.removeVar x) x) = l.findSome? (varIn m x) := by
        intro l hl
        induction l with
        | nil => rfl
        | cons a l ih =>
          simp only [List.mem_cons, not_or] at hl
          rw [List.findSome?_cons, List.findSome?_cons, hvar, ih hl.2]
          rw [if_neg (fun h => hl.1 h.1.symm)]
      exact this post hnp
    rw [h2]
    exact CtxMgr.innermost_findSome _ _
  · intro y hy hne
    rw [CtxMgr.getVar_unqualified _ hy, CtxMgr.getVar_unqualified _ hy]
    have e : varIn (m.removeVar x) y = varIn m y := by funext i; rw [hvar]; simp [hne]
    rw [e, hrm]; rfl
  · intro i y
    rw [hrm]
    unfold funcIn
    rw [CtxMgr.setCtx_heap]
    by_cases h : i = t
    · subst h; simp [Ctx.removeVar]
    · simp [h]

/-- The environments of the programs started, in order. -/
def envsOf : List Event → List (AMap Str)
  | [] => []
  | .spawn _ (.exec img) _ :: t => envsOf t ++ [img.env]
  | _ :: t => envsOf t

/-- C41 fails for the environment: after `export X=1` and `unset X` the name has no value, but the
next program is still given `X=1`. -/
theorem C41_counterexample :
    let s := demo [cs!"export X=1", cs!"unset X", cs!"ls"] [.st (.exited 100 0)]
    valueOf s (cs!"X") = none ∧
    (envsOf s.trace).map (·.get (cs!"X")) = [some (cs!"1")] := by
  decide +kernel

example : twoCtx.stack.Nodup ∧ twoCtx.stack = [] ++ 1 :: [0] ∧ (varIn twoCtx (cs!"X") 1).isSome = true ∧
    ((twoCtx.removeVar (cs!"X")).getVar (cs!"X")).map Var.value = some (cs!"outer") := by decide

/-! ## C42 -/

theorem funcIn_addFunction (m : CtxMgr) (t : Nat) (f g : Str) (b : FunctionBody) (i : Nat)
    (hro : (m.heap t).roFuncs = []) :
    funcIn (m.setCtx t ((m.heap t).addFunction f b).1) g i
      = if i = t ∧ g = f then some b else funcIn m g i := by
  unfold funcIn Ctx.addFunction
  rw [CtxMgr.setCtx_heap, hro]
  by_cases h : i = t
  · subst h
    have := AMap.get_insert (m.heap i).funcs g f b
    unfold AMap.get at this
    simp only [List.contains_nil, Bool.false_eq_true, if_false, if_true]
    rw [this]
    by_cases hy : g = f <;> simp [hy]
  · simp [h]

theorem innermost_nodup_removed {has has' : Nat → Option α} {pre post : List Nat} {t : Nat}
    (hnd : (pre ++ t :: post).Nodup) (hpre : ∀ i ∈ pre, has i = none)
    (h' : ∀ i, has' i = if i = t then none else has i) :
    Innermost has post ((pre ++ t :: post).findSome? has') := by
  have hnp : t ∉ post := by
    have := (List.nodup_append.1 hnd).2.1
    exact (List.nodup_cons.1 this).1
  have h1 : pre.findSome? has' = none := by
    rw [List.findSome?_eq_none_iff]
    intro i hi
    rw [h']; split
    · rfl
    · exact hpre i hi
  rw [List.findSome?_append, h1, Option.none_or, List.findSome?_cons, h' t, if_pos rfl]
  have : ∀ l : List Nat, t ∉ l → l.findSome? has' = l.findSome? has := by
    intro l hl
    induction l with
    | nil => rfl
    | cons a l ih =>
      simp only [List.mem_cons, not_or] at hl
      rw [List.findSome?_cons, List.findSome?_cons, h' a, if_neg (Ne.symm hl.1), ih hl.2]
  simp only
  rw [this post hnp]
  exact CtxMgr.innermost_findSome _ _

/-- C42, defining: the function is then found under its name with exactly that body; the definition
replaces the visible one, or is new in the current context; every other function and every variable
is as before. -/
theorem C42_define (m : CtxMgr) (f : Str) (b : FunctionBody) (hf : Unqualified f)
    (hs : m.stack ≠ []) (hro : ∀ i, (m.heap i).roFuncs = []) :
    ∃ t pre post, m.stack = pre ++ t :: post ∧ (∀ i ∈ pre, funcIn m f i = none) ∧
      ((funcIn m f t).isSome = true ∨ (pre = [] ∧ ∀ i ∈ m.stack, funcIn m f i = none)) ∧
      (m.addFunction f b).1.getFunction f = some b ∧ (m.addFunction f b).1.isFunction f = true ∧
      (∀ i g, funcIn (m.addFunction f b).1 g i = if i = t ∧ g = f then some b else funcIn m g i) ∧
      (∀ g, Unqualified g → g ≠ f → (m.addFunction f b).1.getFunction g = m.getFunction g) ∧
      (∀ i y, varIn (m.addFunction f b).1 y i = varIn m y i) ∧
      (m.addFunction f b).1.stack = m.stack ∧ (m.addFunction f b).1.exported = m.exported := by
  obtain ⟨t, pre, post, hst, hpre, hor, hadd⟩ : ∃ t pre post, m.stack = pre ++ t :: post ∧
      (∀ i ∈ pre, funcIn m f i = none) ∧
      ((funcIn m f t).isSome = true ∨ (pre = [] ∧ ∀ i ∈ m.stack, funcIn m f i = none)) ∧
      (m.addFunction f b).1 = m.setCtx t ((m.heap t).addFunction f b).1 := by
    unfold CtxMgr.addFunction
    cases h : m.findCtx (fun c => (c.getFunction f).isSome) with
    | some id =>
      obtain ⟨h1, pre, post, e, hn⟩ := CtxMgr.findCtx_some h
      refine ⟨id, pre, post, e, fun i hi => ?_, .inl h1, rfl⟩
      have := hn i hi
      rw [Option.isSome_eq_false_iff, Option.isNone_iff_eq_none] at this
      exact this
    | none =>
      have hn := CtxMgr.findCtx_none h
      have hn' : ∀ i ∈ m.stack, funcIn m f i = none := fun i hi => by
        have := hn i hi
        rw [Option.isSome_eq_false_iff, Option.isNone_iff_eq_none] at this
        exact this
      cases hst : m.stack with
      | nil => exact absurd hst hs
      | cons t l =>
        refine ⟨t, [], l, rfl, by simp, .inr ⟨rfl, ?_⟩, ?_⟩
        · rw [← hst]; exact hn'
        · simp [CtxMgr.current, hst]
  have hvar : ∀ i g, funcIn (m.addFunction f b).1 g i = if i = t ∧ g = f then some b else funcIn m g i := by
    intro i g; rw [hadd]; exact funcIn_addFunction m t f g b i (hro t)
  have hstk : (m.addFunction f b).1.stack = m.stack := by rw [hadd]; rfl
  have hget : (m.addFunction f b).1.getFunction f = some b := by
    rw [CtxMgr.getFunction_unqualified _ hf]
    apply CtxMgr.innermost_unique
    refine ⟨pre, t, post, by rw [hstk]; exact hst, fun i hi => ?_, by simp [hvar]⟩
    rw [hvar]
    by_cases hit : i = t
    · subst hit
      rcases hor with h | ⟨rfl, _⟩
      · rw [hpre i hi] at h; cases h
      · simp at hi
    · simp [hit, hpre i hi]
  refine ⟨t, pre, post, hst, hpre, hor, hget, ?_, hvar, ?_, ?_, hstk, by rw [hadd]; rfl⟩
  · unfold CtxMgr.isFunction
    rw [splitNs_unqualified hf]
    simp only [List.any_eq_true]
    refine ⟨t, by rw [hstk, hst]; simp, ?_⟩
    have : ((m.addFunction f b).1.heap t).getFunction f = some b := by
      have := hvar t f
      rw [if_pos ⟨rfl, rfl⟩] at this
      exact this
    rw [this]; rfl
  · intro g hg hne
    rw [CtxMgr.getFunction_unqualified _ hg, CtxMgr.getFunction_unqualified _ hg]
    have e : funcIn (m.addFunction f b).1 g = funcIn m g := by funext i; rw [hvar]; simp [hne]
    rw [e, hstk]
  · intro i y
    rw [hadd]
    unfold varIn
    rw [CtxMgr.setCtx_heap]
    split
    · next e => subst e; unfold Ctx.addFunction; split <;> rfl
    · rfl

/-- C42, removing: `unset -f NAME` removes the innermost definition and uncovers the next outer one. -/
theorem C42_remove (m : CtxMgr) (f : Str) (pre post : List Nat) (t : Nat) (hf : Unqualified f)
    (hnd : m.stack.Nodup) (hst : m.stack = pre ++ t :: post) (hpre : ∀ i ∈ pre, funcIn m f i = none)
    (ht : (funcIn m f t).isSome = true) :
    Innermost (funcIn m f) post ((m.removeFunction f).getFunction f) ∧
    (∀ i g, funcIn (m.removeFunction f) g i = if i = t ∧ g = f then none else funcIn m g i) ∧
    (∀ g, Unqualified g → g ≠ f → (m.removeFunction f).getFunction g = m.getFunction g) ∧
    (∀ i y, varIn (m.removeFunction f) y i = varIn m y i) ∧
    (m.removeFunction f).stack = m.stack ∧ (m.removeFunction f).exported = m.exported := by
  have hfc : m.findCtx (fun c => (c.getFunction f).isSome) = some t := by
    unfold CtxMgr.findCtx
    rw [List.find?_eq_some_iff_append]
    refine ⟨ht, pre, post, hst, fun i hi => ?_⟩
    have : (m.heap i).getFunction f = none := hpre i hi
    simp [this]
  have hrm : m.removeFunction f = m.setCtx t ((m.heap t).removeFunction f) := by
    unfold CtxMgr.removeFunction
    rw [splitNs_unqualified hf]
    simp only [hfc]
  have hvar : ∀ i g, funcIn (m.removeFunction f) g i
      = if i = t ∧ g = f then none else funcIn m g i := by
    intro i y
    rw [hrm]
    unfold funcIn
    rw [CtxMgr.setCtx_heap]
    by_cases h : i = t
    · subst h
      simp only [if_true, Ctx.removeFunction]
      have := AMap.get_erase (m.heap i).funcs y f
      unfold AMap.get at this
      rw [this]
      by_cases hy : y = f <;> simp [hy]
    · simp [h]
  refine ⟨?_, hvar, ?_, ?_, by rw [hrm]; rfl, by rw [hrm]; rfl⟩
  · rw [CtxMgr.getFunction_unqualified _ hf]
    have hst' : (m.removeFunction f).stack = pre ++ t :: post := by rw [hrm]; exact hst
    rw [hst']
    rw [hst] at hnd
    exact innermost_nodup_removed hnd hpre (fun i => by rw [hvar]; simp)
  · intro g hg hne
    rw [CtxMgr.getFunction_unqualified _ hg, CtxMgr.getFunction_unqualified _ hg]
    have e : funcIn (m.removeFunction f) g = funcIn m g := by funext i; rw [hvar]; simp [hne]
    rw [e, hrm]; rfl
  · intro i y
    rw [hrm]
    unfold varIn
    rw [CtxMgr.setCtx_heap]
    split
    · next e => subst e; rfl
    · rfl

/-- A stack in which both contexts define `f`. -/
def twoFun : CtxMgr where
  heap i := if i = 0 then { funcs := [(cs!"f", .mk (.braceGroup []) none)] }
    else { funcs := [(cs!"f", .mk .unsupported none), (cs!"g", .mk .unsupported none)] }
  next := 2
  stack := [1, 0]
  exported := []

example : twoFun.stack ≠ [] ∧ (∀ i, (twoFun.heap i).roFuncs = []) ∧ twoFun.stack.Nodup ∧
    (funcIn twoFun (cs!"f") 1).isSome = true ∧ (funcIn twoFun (cs!"f") 0).isSome = true :=
  ⟨by decide, fun i => by unfold twoFun; simp only; split <;> rfl, by decide, rfl, rfl⟩

end Rsh
