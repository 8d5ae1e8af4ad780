import Verif.Props.Context
import Verif.Proofs.Calm
import Verif.Props.Restricted
import Verif.Spec.Fixed

/-!
# C31, C151 and C154: variables and functions in a session
-/

namespace Rsh

open Spec

/-- `x` is read-only in context `k`, and no context further in has it; the contexts from `fr` outwards are `base`. -/
def Shown (m : CtxMgr) (x v : Str) (fr : List Nat) (k : Nat) (rest : List Nat) : Prop :=
  ∃ pre, m.stack = pre ++ (fr ++ k :: rest) ∧ (∀ j ∈ pre ++ fr, varIn m x j = none) ∧ varIn m x k = some ⟨v, true⟩

theorem Shown.innermost {m : CtxMgr} {x v : Str} {fr : List Nat} {k : Nat} {rest : List Nat} (h : Shown m x v fr k rest) :
    Innermost (varIn m x) m.stack (some ⟨v, true⟩) := by
  obtain ⟨pre, e, h1, h2⟩ := h
  exact ⟨pre ++ fr, k, rest, by rw [e, List.append_assoc], h1, h2⟩

/-- The variable and the stack are as they were. -/
theorem Shown.same {m m' : CtxMgr} {x v : Str} {fr : List Nat} {k : Nat} {rest : List Nat} (h : Shown m x v fr k rest)
    (hs : m'.stack = m.stack) (hv : ∀ j, varIn m' x j = varIn m x j) : Shown m' x v fr k rest := by
  obtain ⟨pre, e, h1, h2⟩ := h
  exact ⟨pre, hs.trans e, fun j hj => (hv j).trans (h1 j hj), (hv k).trans h2⟩

theorem funs_var {m : CtxMgr} {x : Str} {t : Nat} {c : Ctx} (h : c.vars = (m.heap t).vars) (j : Nat) :
    varIn (m.setCtx t c) x j = varIn m x j := by
  unfold varIn
  rw [CtxMgr.setCtx_heap]
  split
  · next e => subst e; rw [h]
  · rfl

/-- What one operation does to the stack. -/
theorem op_stack {m m' : CtxMgr} {o : CtxOp} (h : o.run m = some m') :
    (m'.stack = m.stack ∧ m'.next = m.next) ∨ (m' = m.pushNew) ∨
    (m'.next = m.next ∧ m'.heap = m.heap ∧ ∃ id, m.stack = id :: m'.stack) := by
  cases o with
  | assign set =>
    simp only [CtxOp.run] at h
    unfold CtxMgr.addVar at h
    simp only at h
    have key : ∀ t, ((m.heap t).addSet set).map (m.setCtx t) = some m' → m'.stack = m.stack ∧ m'.next = m.next := by
      intro t ht
      obtain ⟨c, _, rfl⟩ := Option.map_eq_some_iff.1 ht
      exact ⟨rfl, rfl⟩
    left
    split at h
    · split at h
      · split at h
        · cases h; exact ⟨rfl, rfl⟩
        · exact key _ h
      · cases h; exact ⟨rfl, rfl⟩
    · obtain ⟨t, _, h⟩ := Option.bind_eq_some_iff.1 h
      exact key _ h
  | push => cases h; exact .inr (.inl rfl)
  | pop =>
    simp only [CtxOp.run, Option.map_eq_some_iff] at h
    obtain ⟨⟨id, m1⟩, hp, rfl⟩ := h
    unfold CtxMgr.pop at hp
    split at hp
    · next e => cases hp; exact .inr (.inr ⟨rfl, rfl, _, e⟩)
    · cases hp
  | define n b =>
    cases h
    left
    unfold CtxMgr.addFunction
    split
    · exact ⟨rfl, rfl⟩
    · split <;> exact ⟨rfl, rfl⟩
  | undefine n =>
    cases h
    left
    unfold CtxMgr.removeFunction
    split
    · split <;> exact ⟨rfl, rfl⟩
    · split <;> exact ⟨rfl, rfl⟩
  | name ns id => cases h; exact .inl ⟨rfl, rfl⟩
  | unname ns => cases h; exact .inl ⟨rfl, rfl⟩
  | mark y =>
    left
    simp only [CtxOp.run] at h
    have key : ∀ t y, m.markReadonly t y = some m' → m'.stack = m.stack ∧ m'.next = m.next := by
      intro t y hm
      unfold CtxMgr.markReadonly at hm
      obtain ⟨b, _, rfl⟩ := Option.map_eq_some_iff.1 hm
      exact ⟨rfl, rfl⟩
    unfold CtxMgr.setVarReadonly at h
    split at h
    · split at h
      · exact key _ _ h
      · cases h; exact ⟨rfl, rfl⟩
    · split at h
      · exact key _ _ h
      · obtain ⟨t, _, h⟩ := Option.bind_eq_some_iff.1 h
        exact key _ _ h

/-- As long as a read-only `x` is the innermost one, no other gets in front of it. -/
theorem op_shown {m m' : CtxMgr} {o : CtxOp} {x v : Str} {fr : List Nat} {k : Nat} {rest : List Nat} (h : o.run m = some m')
    (hi : ∀ i ∈ m.stack, i < m.next) (hb : (fr ++ k :: rest) <:+ m'.stack) (hm : Shown m x v fr k rest) :
    Shown m' x v fr k rest := by
  rcases op_stack h with ⟨hs, hn⟩ | rfl | ⟨_, hh, id, hs⟩
  · cases o with
    | assign set =>
      by_cases e : x = CtxMgr.setName set
      · subst e
        obtain ⟨pre, es, h1, h2⟩ := hm
        have hf : m.findCtx (fun c => (c.getVar (CtxMgr.setName set)).isSome) = some k := by
          unfold CtxMgr.findCtx
          rw [List.find?_eq_some_iff_append]
          refine ⟨by show (varIn m (CtxMgr.setName set) k).isSome = true; rw [h2]; rfl, pre ++ fr, rest,
            by rw [es, List.append_assoc], fun i hj => ?_⟩
          show (!(varIn m (CtxMgr.setName set) i).isSome) = true
          rw [h1 i hj]; rfl
        have hg : (m.heap k).getVar (CtxMgr.setName set) = some ⟨v, true⟩ := h2
        simp only [CtxOp.run] at h
        unfold CtxMgr.addVar at h
        simp only [hf, hg, if_true, Option.some.injEq] at h
        subst h
        exact ⟨pre, es, h1, h2⟩
      · refine hm.same hs fun j => ?_
        simp only [CtxOp.run] at h
        unfold CtxMgr.addVar at h
        simp only at h
        have key : ∀ t, ((m.heap t).addSet set).map (m.setCtx t) = some m' → varIn m' x j = varIn m x j := by
          intro t ht
          obtain ⟨c, hc, rfl⟩ := Option.map_eq_some_iff.1 ht
          unfold varIn
          rw [CtxMgr.setCtx_heap]
          split
          · next e' => subst e'; exact addSet_var_ne hc e
          · rfl
        split at h
        · split at h
          · split at h
            · cases h; rfl
            · exact key _ h
          · cases h; rfl
        · obtain ⟨t, _, h⟩ := Option.bind_eq_some_iff.1 h
          exact key _ h
    | push =>
      cases h
      exact absurd hn (Nat.succ_ne_self m.next)
    | pop =>
      refine hm.same hs fun j => ?_
      simp only [CtxOp.run, Option.map_eq_some_iff] at h
      obtain ⟨⟨id, m1⟩, hp, rfl⟩ := h
      unfold CtxMgr.pop at hp
      split at hp
      · cases hp; rfl
      · cases hp
    | define n b =>
      refine hm.same hs fun j => ?_
      cases h
      have hv : ∀ c : Ctx, (c.addFunction n b).1.vars = c.vars := by
        intro c; unfold Ctx.addFunction; split <;> rfl
      unfold CtxMgr.addFunction
      split
      · exact funs_var (hv _) j
      · split
        · exact funs_var (hv _) j
        · rfl
    | undefine n =>
      refine hm.same hs fun j => ?_
      cases h
      unfold CtxMgr.removeFunction
      split
      · split
        · exact funs_var (c := (m.heap _).removeFunction _) rfl j
        · rfl
      · split
        · exact funs_var (c := (m.heap _).removeFunction _) rfl j
        · rfl
    | name ns id => cases h; exact hm.same rfl fun _ => rfl
    | unname ns => cases h; exact hm.same rfl fun _ => rfl
    | mark y =>
      obtain ⟨pre, es, h1, h2⟩ := hm
      simp only [CtxOp.run] at h
      have key : ∀ t y, m.markReadonly t y = some m' → Shown m' x v fr k rest := by
        intro t y h
        unfold CtxMgr.markReadonly at h
        obtain ⟨b, hb', rfl⟩ := Option.map_eq_some_iff.1 h
        have hb' : varIn m y t = some b := hb'
        refine ⟨pre, es, fun j hj => ?_, ?_⟩
        · rw [CtxMgr.varIn_setVar]
          split
          · next hc => obtain ⟨rfl, rfl⟩ := hc; rw [h1 j hj] at hb'; cases hb'
          · exact h1 j hj
        · rw [CtxMgr.varIn_setVar]
          split
          · next hc => obtain ⟨rfl, rfl⟩ := hc; rw [h2] at hb'; cases hb'; rfl
          · exact h2
      unfold CtxMgr.setVarReadonly at h
      split at h
      · split at h
        · exact key _ _ h
        · cases h; exact ⟨pre, es, h1, h2⟩
      · split at h
        · exact key _ _ h
        · obtain ⟨t, _, h⟩ := Option.bind_eq_some_iff.1 h
          exact key _ _ h
  · obtain ⟨pre, es, h1, h2⟩ := hm
    have hv : ∀ j, j < m.next → varIn m.pushNew x j = varIn m x j := by
      intro j hj
      unfold varIn CtxMgr.pushNew
      simp only
      rw [if_neg (Nat.ne_of_lt hj)]
    refine ⟨m.next :: pre, by show m.next :: m.stack = _; rw [es]; rfl, fun j hj => ?_, ?_⟩
    · rcases List.mem_cons.1 hj with rfl | hj
      · unfold varIn CtxMgr.pushNew
        simp
      · have hj : j ∈ pre ++ fr := hj
        rw [hv j (hi j (by rw [es, ← List.append_assoc]; exact List.mem_append_left _ hj))]
        exact h1 j hj
    · rw [hv k (hi k (by rw [es]; simp))]
      exact h2
  · obtain ⟨pre, es, h1, h2⟩ := hm
    have hv : ∀ j, varIn m' x j = varIn m x j := by
      intro j
      unfold varIn
      rw [hh]
    cases pre with
    | nil =>
      have := hb.length_le
      rw [List.nil_append] at es
      rw [← es, hs] at this
      simp at this
      exact absurd this (Nat.not_succ_le_self _)
    | cons p pre =>
      rw [hs, List.cons_append] at es
      injection es with _ es
      exact ⟨pre, es, fun j hj => (hv j).trans (h1 j (List.mem_cons_of_mem _ hj)), (hv k).trans h2⟩

/-- Contexts once left do not come back. -/
theorem op_back {m m' : CtxMgr} {o : CtxOp} {base : List Nat} (h : o.run m = some m') (hl : ∀ i ∈ base, i < m.next)
    (hb : base <:+ m'.stack) : base <:+ m.stack ∧ m.next ≤ m'.next := by
  rcases op_stack h with ⟨hs, hn⟩ | rfl | ⟨hn, _, id, hs⟩
  · exact ⟨hs ▸ hb, Nat.le_of_eq hn.symm⟩
  · refine ⟨?_, Nat.le_succ _⟩
    rcases List.suffix_cons_iff.1 (show base <:+ m.next :: m.stack from hb) with rfl | h
    · exact absurd (hl _ List.mem_cons_self) (Nat.lt_irrefl _)
    · exact h
  · exact ⟨hs ▸ hb.trans (List.suffix_cons _ _), Nat.le_of_eq hn.symm⟩

theorem ops_back {os : List CtxOp} : ∀ {m m' : CtxMgr} {base : List Nat}, runOps m os = some m' → (∀ i ∈ base, i < m.next) →
    base <:+ m'.stack → base <:+ m.stack := by
  induction os with
  | nil => intro m m' base h _ hb; cases h; exact hb
  | cons o os ih =>
    intro m m' base h hl hb
    simp only [runOps, Option.bind_eq_some_iff] at h
    obtain ⟨m1, h1, h2⟩ := h
    have hn : m.next ≤ m1.next := by
      rcases op_stack h1 with ⟨_, hn⟩ | rfl | ⟨hn, _⟩
      · exact Nat.le_of_eq hn.symm
      · exact Nat.le_succ _
      · exact Nat.le_of_eq hn.symm
    exact (op_back h1 hl (ih h2 (fun i hi => Nat.lt_of_lt_of_le (hl i hi) hn) hb)).1

theorem op_lt {m m' : CtxMgr} {o : CtxOp} (h : o.run m = some m') (hi : ∀ i ∈ m.stack, i < m.next) :
    m.next ≤ m'.next ∧ ∀ i ∈ m'.stack, i < m'.next := by
  rcases op_stack h with ⟨hs, hn⟩ | rfl | ⟨hn, _, id, hs⟩
  · rw [hs, hn]; exact ⟨Nat.le_refl _, hi⟩
  · refine ⟨Nat.le_succ _, fun i h => ?_⟩
    rcases List.mem_cons.1 h with rfl | h
    · exact Nat.lt_succ_self _
    · exact Nat.lt_succ_of_lt (hi i h)
  · rw [hn]; exact ⟨Nat.le_refl _, fun i h => hi i (by rw [hs]; exact List.mem_cons_of_mem _ h)⟩

/-- C31, the part that holds, for what `$x` shows: after any sequence of assignments (in any context), function calls and
returns, function definitions and removals, naming and unnaming of contexts and further `readonly NAME`, at whose end the
contexts of the beginning are in place again, a read-only variable that was the innermost of its name is so still. -/
theorem C31_visible_partial (os : List CtxOp) : ∀ (m m' : CtxMgr) (x v : Str),
    runOps m os = some m' → (∀ i ∈ m.stack, i < m.next) → m.stack <:+ m'.stack →
    Innermost (varIn m x) m.stack (some ⟨v, true⟩) → Innermost (varIn m' x) m'.stack (some ⟨v, true⟩) := by
  have key : ∀ (os : List CtxOp) (m m' : CtxMgr) (x v : Str) (fr : List Nat) (k : Nat) (rest : List Nat),
      runOps m os = some m' → (∀ i ∈ m.stack, i < m.next) → (fr ++ k :: rest) <:+ m'.stack → Shown m x v fr k rest →
      Shown m' x v fr k rest := by
    intro os
    induction os with
    | nil => intro m m' x v fr k rest h _ _ hs; cases h; exact hs
    | cons o os ih =>
      intro m m' x v fr k rest h hi hb hs
      simp only [runOps, Option.bind_eq_some_iff] at h
      obtain ⟨m1, h1, h2⟩ := h
      obtain ⟨hn, hi1⟩ := op_lt h1 hi
      have hl : ∀ i ∈ fr ++ k :: rest, i < m1.next := by
        intro i hm
        obtain ⟨pre, es, _⟩ := hs
        exact Nat.lt_of_lt_of_le (hi i (by rw [es]; exact List.mem_append_right _ hm)) hn
      exact ih m1 m' x v fr k rest h2 hi1 hb (op_shown h1 hi (ops_back h2 hl hb) hs)
  rintro m m' x v h hi hb ⟨pre, k, post, e, h1, h2⟩
  exact (key os m m' x v pre k post h hi (e ▸ hb) ⟨[], e, by simpa using h1, h2⟩).innermost

theorem later_kept {w : World} {D : List Str} (hD : ∀ x ∈ indirect, x ∈ D) {s s' : Sh} (hg : Good s.ctx) (hc : Confined D s)
    (h : LaterWithout D w s s') : Good s'.ctx ∧ Confined D s' ∧
      Kept ⟨D, fun _ => True, True, False⟩ s s' ∧ s.ctx.stack <:+ s'.ctx.stack := by
  have F := Stacked.frame w False
  have step : ∀ {m : M Unit} {s1 s2 : Sh}, Calm ⟨D, fun _ => True, True, False⟩ w m →
      Keeps (Stacked False) (fun _ _ => True) m → m s1 = (.ok (), s2) →
      (Good s1.ctx ∧ Confined D s1 ∧ Kept ⟨D, fun _ => True, True, False⟩ s s1 ∧ s.ctx.stack <:+ s1.ctx.stack) →
      Good s2.ctx ∧ Confined D s2 ∧ Kept ⟨D, fun _ => True, True, False⟩ s s2 ∧ s.ctx.stack <:+ s2.ctx.stack := by
    rintro m s1 s2 hm hk e ⟨g, h1, h2, h3⟩
    have h4 := hm s1 h1
    rw [e] at h4
    obtain ⟨g', _, l, h6, _⟩ := hk.ok e g
    exact ⟨g', h4.tame, h2.trans h4.kept, h3.trans ⟨l, h6.symm⟩⟩
  have cp : Calm ⟨D, fun _ => True, True, False⟩ w prompt := by
    unfold prompt
    have := Calm.expandVar (L := ⟨D, fun _ => True, True, False⟩) (w := w)
    calm
  induction h with
  | here => exact ⟨hg, hc, .refl _, List.suffix_refl _⟩
  | line _ ht h ih =>
    exact step (.bind cp fun _ => Calm.interactiveLine (L := ⟨D, fun _ => True, True, False⟩) hD _ ht)
      (.bind Stacked.seq F.prompt fun _ => F.interactiveLine (fun _ h => h.elim) _ _) h ih
  | interrupted _ h ih => exact step cp F.prompt h ih
  | sig _ h ih =>
    exact step (Calm.deliver (L := ⟨D, fun _ => True, True, False⟩) trivial _)
      (F.deliver (fun _ _ _ _ => .of_ctx rfl) (fun _ _ _ => .of_ctx rfl) F.waitForJob _) h ih
  | waits _ ih => exact ⟨ih.1, ih.2.1.same rfl rfl, ih.2.2.1.trans ⟨rfl, rfl, fun _ => rfl, fun _ => rfl,
      fun _ _ _ => runOps_same rfl, fun _ _ _ => .of_eq rfl, [], rfl, by simp⟩, ih.2.2.2⟩

theorem later_steps {w : World} {D : List Str} (hl : ∀ x ∈ loosening, x ∈ D) {s s' : Sh} (hg : Good s.ctx) (hc : Confined D s)
    (h : LaterWithout D w s s') : Good s'.ctx ∧ Confined D s' ∧
      Steps ([] ∈ D) s.ctx s'.ctx ∧ s.ctx.stack <:+ s'.ctx.stack := by
  obtain ⟨h1, h2, h3, h4⟩ := later_kept (fun x hx => hl x (List.mem_append_right _ hx)) hg hc h
  exact ⟨h1, h2, h3.vars (hl _ (by decide)) (hl _ (by decide)) id, h4⟩

/-- C31 for sessions, the part that holds: at every prompt reached by lines, interrupts and signals such that no command
that runs (also in functions) is named `readonly`, `unset`, `export`, `eval`, `source`, `.` or `alias`, every read-only
variable still has its value: those that plain names show, and those in any context that existed.
Missing: the commands named (`C31_counterexample`). -/
theorem C31_session_partial (w : World) (s s' : Sh) (hg : Good s.ctx) (hc : Confined loosening s)
    (h : LaterWithout loosening w s s') :
    (∀ x v, Unqualified x → s.ctx.getVar x = some ⟨v, true⟩ → s'.ctx.getVar x = some ⟨v, true⟩) ∧
    (∀ i x v, i < s.ctx.next → varIn s.ctx x i = some ⟨v, true⟩ → varIn s'.ctx x i = some ⟨v, true⟩) := by
  obtain ⟨_, _, ⟨os, ho, _⟩, hst⟩ := later_steps (fun _ h => h) hg hc h
  refine ⟨fun x v hx hv => ?_, fun i x v hi hv => C31_readonly_partial os _ _ i x v ho hi hv⟩
  refine (C28_innermost s'.ctx x hx).2 _ ?_
  refine C31_visible_partial os s.ctx s'.ctx x v ho hg.stackLt hst ?_
  rw [← hv]
  exact (C28_innermost s.ctx x hx).1

/-- A shell with the read-only variable `x`, as `readonly x=1` leaves it. -/
def roShell : Sh :=
  let s := initSh false 1 2 (cs!"/") [] []
  { s with ctx := (s.ctx.pushNew.addVarReadonly (cs!"x=1")).getD s.ctx }

theorem roShell_ok (D : List Str) : Good roShell.ctx ∧ Confined D roShell ∧
    roShell.ctx.getVar (cs!"x") = some ⟨cs!"1", true⟩ := by
  obtain ⟨m, hm⟩ : ∃ m, (initSh false 1 2 (cs!"/") [] []).ctx.pushNew.addVarReadonly (cs!"x=1") = some m :=
    Option.isSome_iff_exists.1 (by decide +kernel)
  have e : roShell.ctx = m := by
    unfold roShell
    simp only [hm, Option.getD_some]
  refine ⟨?_, ⟨fun id f b hb => ?_, fun k _ => rfl⟩, by decide +kernel⟩
  · rw [e]
    exact ((Stacked.frame (demoWorld []) False).addVarReadonly
      { initSh false 1 2 (cs!"/") [] [] with ctx := (initSh false 1 2 (cs!"/") [] []).ctx.pushNew } _ m hm
      (good_pushNew (good_init ..))).1
  · rw [e] at hb
    have h1 := Calm.addVarReadonly_funs hm id f b hb
    unfold CtxMgr.pushNew at h1
    simp only at h1
    split at h1
    · cases h1
    · exact (initSh_confined D false 1 2 (cs!"/") [] []).functions id f b h1

example : Good roShell.ctx ∧ Confined loosening roShell ∧ roShell.ctx.getVar (cs!"x") = some ⟨cs!"1", true⟩ ∧
    Without loosening (cs!"x=2; f() { x=3; }; f; ls $x") :=
  ⟨(roShell_ok loosening).1, (roShell_ok loosening).2.1, (roShell_ok loosening).2.2, by decide +kernel⟩

example : valueOf (demo [cs!"readonly x=1", cs!"x=2; f() { x=3; }", cs!"f", cs!"f a; x=4"]) (cs!"x") = some (cs!"1") := by
  decide +kernel

/-! ## C151 -/

/-- What a benign operation leaves as it is: the variables of the contexts below `n`, and there are none above. -/
structure SameVar (x : Str) (n : Nat) (m m' : CtxMgr) : Prop where
  next : n ≤ m'.next
  old : ∀ j, j < n → varIn m' x j = varIn m x j
  new : ∀ j, n ≤ j → j < m'.next → varIn m' x j = none
  names : m'.exported = m.exported
  stack : ∀ j ∈ m'.stack, j < n → j ∈ m.stack

theorem benign_step {x : Str} (hx : Named x) {n : Nat} {m0 m m' : CtxMgr} {o : CtxOp} (h : o.run m = some m') (hb : o.Benign)
    (hs : SameVar x n m0 m) : SameVar x n m0 m' := by
  have same : m'.next = m.next → (∀ j ∈ m'.stack, j ∈ m.stack) → m'.exported = m.exported → (∀ j, varIn m' x j = varIn m x j) → SameVar x n m0 m' := by
    intro h1 h4 h2 h3
    exact ⟨by rw [h1]; exact hs.next, fun j hj => (h3 j).trans (hs.old j hj),
      fun j hj hj' => (h3 j).trans (hs.new j hj (h1 ▸ hj')), h2.trans hs.names,
      fun j hj hn => hs.stack j (h4 j hj) hn⟩
  cases o with
  | assign set =>
    have hne : x ≠ CtxMgr.setName set := by
      rintro rfl
      have hb : (CtxMgr.setName set).head?.any isDigit10 = true := hb
      unfold Named at hx
      generalize CtxMgr.setName set = y at hb hx
      rcases y with _ | ⟨c, r⟩
      · cases hb
      · simp only [List.head?_cons, Option.any_some, Option.all_some, Bool.not_eq_true'] at hb hx
        rw [hb] at hx; cases hx
    simp only [CtxOp.run] at h
    unfold CtxMgr.addVar at h
    simp only at h
    have key : ∀ t, ((m.heap t).addSet set).map (m.setCtx t) = some m' → SameVar x n m0 m' := by
      intro t ht
      obtain ⟨c, hc, rfl⟩ := Option.map_eq_some_iff.1 ht
      refine same rfl (fun _ h => h) rfl fun j => ?_
      unfold varIn
      rw [CtxMgr.setCtx_heap]
      split
      · next e' => subst e'; exact addSet_var_ne hc hne
      · rfl
    split at h
    · split at h
      · split at h
        · cases h; exact hs
        · exact key _ h
      · cases h; exact hs
    · obtain ⟨t, _, h⟩ := Option.bind_eq_some_iff.1 h
      exact key _ h
  | push =>
    cases h
    have hv : ∀ j, j ≠ m.next → varIn m.pushNew x j = varIn m x j := by
      intro j hj
      unfold varIn CtxMgr.pushNew
      simp only
      rw [if_neg hj]
    refine ⟨Nat.le_succ_of_le hs.next, fun j hj => ?_, fun j hj hj' => ?_, hs.names, fun j hj hn => ?_⟩
    · rw [hv j (Nat.ne_of_lt (Nat.lt_of_lt_of_le hj hs.next))]; exact hs.old j hj
    · by_cases e : j = m.next
      · subst e
        unfold varIn CtxMgr.pushNew
        simp
      · rw [hv j e]
        exact hs.new j hj (Nat.lt_of_le_of_ne (Nat.le_of_lt_succ hj') e)
    · rcases List.mem_cons.1 hj with rfl | hj
      · exact absurd hs.next (Nat.not_le.2 hn)
      · exact hs.stack j hj hn
  | pop =>
    simp only [CtxOp.run, Option.map_eq_some_iff] at h
    obtain ⟨⟨id, m1⟩, hp, rfl⟩ := h
    unfold CtxMgr.pop at hp
    split at hp
    · next e =>
      cases hp
      exact same rfl (fun j hj => by rw [e]; exact List.mem_cons_of_mem _ hj) rfl fun _ => rfl
    · cases hp
  | define f b =>
    cases h
    have hv : ∀ c : Ctx, (c.addFunction f b).1.vars = c.vars := by
      intro c; unfold Ctx.addFunction; split <;> rfl
    have e : (m.addFunction f b).1.next = m.next ∧ (m.addFunction f b).1.exported = m.exported ∧
        (m.addFunction f b).1.stack = m.stack ∧
        ∀ j, varIn (m.addFunction f b).1 x j = varIn m x j := by
      unfold CtxMgr.addFunction
      split
      · exact ⟨rfl, rfl, rfl, funs_var (hv _)⟩
      · split
        · exact ⟨rfl, rfl, rfl, funs_var (hv _)⟩
        · exact ⟨rfl, rfl, rfl, fun _ => rfl⟩
    exact same e.1 (fun j hj => e.2.2.1 ▸ hj) e.2.1 e.2.2.2
  | _ => exact hb.elim

theorem benign_steps {x : Str} (hx : Named x) {n : Nat} {m0 : CtxMgr} {os : List CtxOp} : ∀ {m m' : CtxMgr},
    runOps m os = some m' → (∀ o ∈ os, o.Benign) → SameVar x n m0 m → SameVar x n m0 m' := by
  induction os with
  | nil => intro m m' h _ hs; cases h; exact hs
  | cons o os ih =>
    intro m m' h hb hs
    simp only [runOps, Option.bind_eq_some_iff] at h
    obtain ⟨m1, h1, h2⟩ := h
    exact ih h2 (fun o ho => hb o (List.mem_cons_of_mem _ ho)) (benign_step hx h1 (hb o List.mem_cons_self) hs)

theorem findSome_same {f g : Nat → Option α} : ∀ {l : List Nat}, (∀ j ∈ l, f j = g j) → l.findSome? f = l.findSome? g
  | [], _ => rfl
  | j :: l, h => by
    simp only [List.findSome?_cons, h j List.mem_cons_self, findSome_same fun i hi => h i (List.mem_cons_of_mem _ hi)]

/-- C151: at every prompt reached by lines, interrupts and signals such that no command that runs (also in functions) is
an assignment or named `readonly`, `unset`, `export`, `eval`, `source`, `.` or `alias`, every variable that is not a
positional parameter is as it was, be it by its plain name or in a namespace. -/
theorem C151_variables (w : World) (s s' : Sh) (hg : Good s.ctx) (hc : Confined assigning s)
    (h : LaterWithout assigning w s s') (x : Str) (hx : Named x) (hu : Unqualified x) :
    s'.ctx.getVar x = s.ctx.getVar x ∧
    ∀ ns, Unqualified (ns ++ [':']) → s'.ctx.getVar (ns ++ ':' :: ':' :: x) = s.ctx.getVar (ns ++ ':' :: ':' :: x) := by
  obtain ⟨hg', _, ⟨os, ho, hb⟩, l, hl⟩ := later_steps (fun x h => List.mem_cons_of_mem _ h) hg hc h
  have hs : SameVar x s.ctx.next s.ctx s'.ctx := benign_steps hx ho (hb List.mem_cons_self)
    ⟨Nat.le_refl _, fun _ _ => rfl, fun j h h' => absurd h' (Nat.not_lt.2 h), rfl, fun _ h _ => h⟩
  constructor
  · rw [CtxMgr.getVar_unqualified _ hu, CtxMgr.getVar_unqualified _ hu, ← hl, List.findSome?_append]
    have h1 : l.findSome? (varIn s'.ctx x) = none := by
      rw [List.findSome?_eq_none_iff]
      intro j hj
      have hm : j ∈ s'.ctx.stack := by rw [← hl]; exact List.mem_append_left _ hj
      refine hs.new j (Nat.le_of_not_lt fun hn => ?_) (hg'.stackLt j hm)
      have hd := hg'.nodup
      rw [← hl, List.nodup_append] at hd
      exact hd.2.2 j hj j (hs.stack j hm hn) rfl
    rw [h1, Option.none_or]
    exact findSome_same fun j hj => hs.old j (hg.stackLt j hj)
  · intro ns hn
    rw [CtxMgr.getVar_qualified _ hn hu, CtxMgr.getVar_qualified _ hn hu, hs.names]
    cases hlk : s.ctx.exported.lookup ns with
    | none => rfl
    | some id => exact hs.old id (hg.exportedLt (ns, id) (lookup_mem hlk))

example : Good roShell.ctx ∧ Confined assigning roShell ∧ Named (cs!"x") ∧ Unqualified (cs!"x") ∧
    Without assigning (cs!"f() { ls $1; cd /; }; f a | cat; jobs") := by
  obtain ⟨h1, h2, h3⟩ := roShell_ok assigning
  exact ⟨h1, h2, by unfold Named; decide, unqualified_iff.2 rfl, by decide +kernel⟩

example : valueOf (demo [cs!"x=1; f() { cd /; pwd; }", cs!"f x=2", cs!"f a; ls x=4 > x"]) (cs!"x") = some (cs!"1") := by
  decide +kernel

/-! ## C154 -/

/-- C154: at every prompt reached by lines, interrupts and signals such that no command that runs (also in functions) is
the definition of a function or named `unset`, `export`, `eval`, `source`, `.` or `alias`, every function is as it was, be
it by its plain name or in a namespace. -/
theorem C154_functions (w : World) (s s' : Sh) (hg : Good s.ctx) (hc : Confined defining s)
    (h : LaterWithout defining w s s') (f : Str) (hu : Unqualified f) :
    s'.ctx.getFunction f = s.ctx.getFunction f ∧
    ∀ ns, Unqualified (ns ++ [':']) →
      s'.ctx.getFunction (ns ++ ':' :: ':' :: f) = s.ctx.getFunction (ns ++ ':' :: ':' :: f) := by
  obtain ⟨hg', _, hk, l, hl⟩ := later_kept (fun x h => List.mem_append_right _ h) hg hc h
  have hs := hk.funs (by decide) (by decide) id
  have ho : ∀ j, j < s.ctx.next → funcIn s'.ctx f j = funcIn s.ctx f j := fun j hj => by
    show (s'.ctx.heap j).funcs.get f = (s.ctx.heap j).funcs.get f
    rw [hs.old j hj]
  constructor
  · rw [CtxMgr.getFunction_unqualified _ hu, CtxMgr.getFunction_unqualified _ hu, ← hl, List.findSome?_append]
    have h1 : l.findSome? (funcIn s'.ctx f) = none := by
      rw [List.findSome?_eq_none_iff]
      intro j hj
      have hm : j ∈ s'.ctx.stack := by rw [← hl]; exact List.mem_append_left _ hj
      show (s'.ctx.heap j).funcs.get f = none
      rw [hs.new j (Nat.le_of_not_lt fun hn => ?_) (hg'.stackLt j hm)]
      · rfl
      · have hd := hg'.nodup
        rw [← hl, List.nodup_append] at hd
        exact hd.2.2 j hj j (hs.stack j hm hn) rfl
    rw [h1, Option.none_or]
    exact findSome_same fun j hj => ho j (hg.stackLt j hj)
  · intro ns hn
    rw [CtxMgr.getFunction_qualified _ hn hu, CtxMgr.getFunction_qualified _ hn hu, hs.names]
    cases hlk : s.ctx.exported.lookup ns with
    | none => rfl
    | some id => exact ho id (hg.exportedLt (ns, id) (lookup_mem hlk))

/-- The body of `f() { x=2; }`. -/
def fnBody : FunctionBody :=
  .mk (.braceGroup [.mk none none (.mk false [.simple ⟨some ⟨[], [cs!"x=2"]⟩, [], none⟩] false)]) none

/-- A shell with the function `f`, as its definition leaves it. -/
def fnShell : Sh :=
  { initSh false 1 2 (cs!"/") [] [] with ctx := ((initSh false 1 2 (cs!"/") [] []).ctx.addFunction (cs!"f") fnBody).1 }

example : Good fnShell.ctx ∧ Confined defining fnShell ∧ fnShell.ctx.isFunction (cs!"f") = true ∧ Unqualified (cs!"f") ∧
    Without defining (cs!"f; readonly y=1; cd /; f=2 | { jobs; cat; } &") := by
  refine ⟨(Shape.addFunction _ _ _).good (good_init ..), ⟨fun id g b h => ?_, fun _ _ => rfl⟩, by decide +kernel,
    unqualified_iff.2 rfl, by decide +kernel⟩
  rcases Calm.addFunction_funs h with rfl | h
  · decide +kernel
  · exact (initSh_confined defining false 1 2 (cs!"/") [] []).functions id g b h

/-- The hypothesis is needed: a definition inside a function counts, and so does `unset`. -/
example : (demo [cs!"f() { ls; }", cs!"g() { f() { pwd; }; }; g", cs!"f"]).trace.length ≠
    (demo [cs!"f() { ls; }", cs!"g() { pwd; }; g", cs!"f"]).trace.length ∧
    ¬ Without defining (cs!"unset -f f") ∧ ¬ Without defining (cs!"g() { ls; }") := by
  decide +kernel

end Rsh
