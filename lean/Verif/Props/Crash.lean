import Verif.Spec.Crash
import Verif.Props.Commands
import Verif.Props.Exec

/-!
# Property C78: exactly when builtins crash
-/

namespace Rsh

open Spec

/-- Computation `m` crashes in the state `s` exactly if `p`, and is otherwise fine; it ends the shell only if `e`. -/
def Exact (e p : Prop) (m : M Unit) (s : Sh) : Prop :=
  (p → ∃ k, (m s).1 = .panic k) ∧ (¬ p → Fine e m s)

theorem Exact.of_crash {e p : Prop} {m : M Unit} {s : Sh} (hp : p) {k} (h : (m s).1 = .panic k) : Exact e p m s :=
  ⟨fun _ => ⟨k, h⟩, fun h => absurd hp h⟩

theorem Exact.of_fine {e p : Prop} {m : M Unit} {s : Sh} (hp : ¬ p) (h : Fine e m s) : Exact e p m s :=
  ⟨fun h => absurd h hp, fun _ => h⟩

theorem Exact.congr {e p : Prop} {m m' : M Unit} {s s' : Sh} (h : m s = m' s') (hm : Exact e p m' s') : Exact e p m s := by
  unfold Exact Fine at *
  rw [h]
  exact hm

theorem Exact.mono {e e' p : Prop} {m : M Unit} {s : Sh} (h : Exact e p m s) (he : e → e') : Exact e' p m s := by
  refine ⟨h.1, fun hp => ?_⟩
  rcases h.2 hp with h | h | h | h
  · exact .inl h
  · exact .inr (.inl h)
  · exact .inr (.inr (.inl ⟨he h.1, h.2⟩))
  · exact .inr (.inr (.inr ⟨he h.1, h.2⟩))

theorem Exact.of_iff {e p q : Prop} {m : M Unit} {s : Sh} (h : p ↔ q) (hq : Exact e q m s) : Exact e p m s :=
  ⟨fun hp => hq.1 (h.1 hp), fun hp => hq.2 (fun x => hp (h.2 x))⟩

/-! ## Numbers -/

theorem isDigit_iff {c : Char} : isDigit10 c = true ↔ Digit c := by
  simp [isDigit10, Digit]

theorem decimal_eq (ds : Str) (acc : Nat) : digitsVal acc ds = acc * 10 ^ ds.length + decimal ds := by
  induction ds generalizing acc with
  | nil => simp [digitsVal_nil, decimal]
  | cons d ds ih =>
    rw [digitsVal_cons, ih, decimal, List.length_cons, Nat.pow_succ, Nat.add_mul]
    have : acc * 10 * 10 ^ ds.length = acc * (10 ^ ds.length * 10) := by
      rw [Nat.mul_assoc, Nat.mul_comm 10]
    rw [this, Nat.add_assoc]
    rfl

theorem parseDigits_iff {ds : Str} {n : Nat} : parseDigits ds = some n ↔ Digits ds ∧ n = decimal ds := by
  unfold parseDigits Digits
  have hv : digitsVal 0 ds = decimal ds := by rw [decimal_eq]; simp
  cases ds with
  | nil => simp
  | cons d ds =>
    by_cases h : (d :: ds).all isDigit10 = true
    · have h' : ∀ c ∈ d :: ds, Digit c := by
        intro c hc
        exact isDigit_iff.1 (List.all_eq_true.1 h c hc)
      simp only [List.isEmpty_cons, Bool.false_eq_true, if_false, h, if_true, Option.some.injEq, hv]
      exact ⟨fun e => ⟨⟨by simp, h'⟩, e.symm⟩, fun e => e.2.symm⟩
    · simp only [List.isEmpty_cons, Bool.false_eq_true, if_false, h, reduceCtorEq, false_iff]
      rintro ⟨⟨-, h'⟩, -⟩
      exact h (List.all_eq_true.2 fun c hc => isDigit_iff.2 (h' c hc))

theorem digits_head {ds : Str} (h : Digits ds) : ∀ c, ds.head? = some c → Digit c := by
  intro c hc
  exact h.2 c (List.mem_of_head? hc)

theorem bind_le_iff {o : Option Nat} {mx n : Nat} :
    (o.bind fun n => if n ≤ mx then some n else none) = some n ↔ o = some n ∧ n ≤ mx := by
  cases o with
  | none => simp
  | some m =>
    simp only [Option.bind_some, Option.some.injEq]
    by_cases h : m ≤ mx
    · rw [if_pos h]
      simp only [Option.some.injEq]
      exact ⟨fun e => ⟨e, e ▸ h⟩, fun e => e.1⟩
    · rw [if_neg h]
      simp only [reduceCtorEq, false_iff]
      rintro ⟨rfl, h2⟩
      exact h h2

theorem parseUnsigned_iff {mx : Nat} {x : Str} {n : Nat} : parseUnsigned mx x = some n ↔ Unsigned mx x n := by
  unfold parseUnsigned
  have hplus : ∀ ds, ¬ Digits ('+' :: ds) := by
    intro ds h
    have := digits_head h '+' rfl
    revert this
    decide
  split
  · next ds =>
    rw [bind_le_iff, parseDigits_iff]
    constructor
    · rintro ⟨⟨h1, rfl⟩, h2⟩
      exact .plus h1 h2
    · intro h
      generalize hx : '+' :: ds = x at h
      cases h with
      | plain h1 => exact absurd (hx ▸ h1) (hplus ds)
      | plus h1 h2 =>
        cases hx
        exact ⟨⟨h1, rfl⟩, h2⟩
  · next hne =>
    rw [bind_le_iff, parseDigits_iff]
    constructor
    · rintro ⟨⟨h1, rfl⟩, h2⟩
      exact .plain h1 h2
    · intro h
      cases h with
      | plain h1 h2 => exact ⟨⟨h1, rfl⟩, h2⟩
      | plus h1 h2 => exact absurd rfl (hne _)

theorem parseI32_iff {x : Str} : (∃ n, parseI32 x = some n) ↔ Signed32 x := by
  have hbind : ∀ (ds : Str) (mx : Nat) (f : Nat → Int),
      (∃ n, ((parseDigits ds).bind fun n => if n ≤ mx then some (f n) else none) = some n) ↔
        Digits ds ∧ decimal ds ≤ mx := by
    intro ds mx f
    rcases h : parseDigits ds with _ | m
    · simp only [Option.bind_none, reduceCtorEq, exists_false, false_iff]
      rintro ⟨h1, -⟩
      rw [parseDigits_iff.2 ⟨h1, rfl⟩] at h
      cases h
    · obtain ⟨h1, rfl⟩ := parseDigits_iff.1 h
      simp only [Option.bind_some]
      by_cases hm : decimal ds ≤ mx
      · rw [if_pos hm]
        exact ⟨fun _ => ⟨h1, hm⟩, fun _ => ⟨_, rfl⟩⟩
      · rw [if_neg hm]
        simp only [reduceCtorEq, exists_false, false_iff]
        exact fun h => hm h.2
  have hsign : ∀ c, c = '+' ∨ c = '-' → ∀ ds, ¬ Digits (c :: ds) := by
    intro c hc ds h
    have := digits_head h c rfl
    rcases hc with rfl | rfl <;> revert this <;> decide
  unfold parseI32 Signed32
  split
  · next ds =>
    rw [hbind]
    constructor
    · rintro ⟨h1, h2⟩
      exact .inr ⟨ds, rfl, h1, h2⟩
    · rintro (⟨n, h⟩ | ⟨ds', e, h1, h2⟩)
      · generalize hx : '-' :: ds = x at h
        cases h with
        | plain h1 => exact absurd (hx ▸ h1) (hsign _ (.inr rfl) ds)
        | plus => cases hx
      · cases e
        exact ⟨h1, h2⟩
  · next ds =>
    rw [hbind]
    constructor
    · rintro ⟨h1, h2⟩
      exact .inl ⟨_, .plus h1 h2⟩
    · rintro (⟨n, h⟩ | ⟨ds', e, h1, h2⟩)
      · generalize hx : '+' :: ds = x at h
        cases h with
        | plain h1 => exact absurd (hx ▸ h1) (hsign _ (.inl rfl) ds)
        | plus h1 h2 => cases hx; exact ⟨h1, h2⟩
      · cases e
  · next h1 h2 =>
    rw [hbind]
    constructor
    · rintro ⟨h1, h2⟩
      exact .inl ⟨_, .plain h1 h2⟩
    · rintro (⟨n, h⟩ | ⟨ds', e, -⟩)
      · cases h with
        | plain h3 h4 => exact ⟨h3, h4⟩
        | plus => exact absurd rfl (h2 _)
      · exact absurd e (h1 ds')

theorem keyOk_iff {t : Str} : keyOk t = true ↔ Storable t := by
  unfold keyOk Storable
  cases t with
  | nil => simp
  | cons c t =>
    simp only [ne_eq, reduceCtorEq, not_false_eq_true, List.head?_cons, Option.some.injEq, true_and]
    by_cases hc : isDigit10 c = true
    · rw [if_pos hc]
      have hf : (c :: t).filter (fun c => decide (Digit c)) = (c :: t).filter isDigit10 := by
        apply List.filter_congr
        intro d _
        rw [Bool.eq_iff_iff, decide_eq_true_iff, isDigit_iff]
      have hd : Digits ((c :: t).filter isDigit10) := by
        refine ⟨?_, fun d hd => isDigit_iff.1 (List.mem_filter.1 hd).2⟩
        simp [hc]
      rw [hf]
      constructor
      · intro h d _ _
        obtain ⟨n, hn⟩ := Option.isSome_iff_exists.1 h
        have := parseUnsigned_iff.1 hn
        generalize (c :: t).filter isDigit10 = ds at this hd
        cases this with
        | plain _ h2 => omega
        | plus _ _ =>
          exact absurd (digits_head hd '+' rfl) (by decide)
      · intro h
        have := h c rfl (isDigit_iff.1 hc)
        rw [Option.isSome_iff_exists]
        exact ⟨_, parseUnsigned_iff.2 (.plain hd (by omega))⟩
    · rw [if_neg hc]
      simp only [true_iff]
      rintro d rfl hd
      exact absurd (isDigit_iff.2 hd) hc

/-! ## The builtins -/

theorem exact_unwrap {q : Prop} {α : Type} {p : Prop} {k : PanicKind} {o : Option α} {f : α → M Unit} {s : Sh} (h : p ↔ o = none)
    (hf : ∀ a, o = some a → Fine q (f a) s) : Exact q p (unwrapM k o >>= f) s := by
  cases o with
  | none => exact .of_crash (h.2 rfl) (k := k) rfl
  | some a =>
    refine .of_fine (fun hp => by cases h.1 hp) ?_
    have := hf a rfl
    exact this

theorem none_iff_not {α : Type} {o : Option α} {q : Prop} (h : (∃ n, o = some n) ↔ q) : ¬ q ↔ o = none := by
  rw [← h]
  cases o <;> simp

/-- Find the cases of `Crashes` for the given name. -/
macro "crashCases " h:ident : tactic =>
  `(tactic| (generalize hnm : (List.cons _ _ : Str) = nm at $h:ident; cases $h:ident <;> cases hnm))

theorem crashes_exit {w : World} {s : Sh} {vs : List Str} :
    Crashes w s (cs!"exit") vs ↔ ∃ v vs', vs = v :: vs' ∧ ¬ Signed32 v := by
  constructor
  · intro h
    crashCases h
    exact ⟨_, _, rfl, by assumption⟩
  · rintro ⟨v, vs', rfl, h⟩
    exact .exit h

theorem crashes_return {w : World} {s : Sh} {vs : List Str} :
    Crashes w s (cs!"return") vs ↔ ∃ v vs', vs = v :: vs' ∧ ¬ Signed32 v := by
  constructor
  · intro h
    crashCases h
    exact ⟨_, _, rfl, by assumption⟩
  · rintro ⟨v, vs', rfl, h⟩
    exact .return h

theorem exact_cd {q : Prop} (w : World) (s : Sh) {c : SimpleCommand} {vs : List Str} (hs : c.suffix = some ⟨[], vs⟩) :
    Exact q (Crashes w s (cs!"cd") vs) (bCd w c) { s with masked := true } := by
  unfold bCd
  cases vs with
  | nil =>
    refine .of_crash .cd (k := .index) ?_
    unfold interruptsOff
    rw [run_modS_bind, run_getS_bind, hs]
    rfl
  | cons v vs =>
    refine .of_fine (fun h => ?_) ?_
    · crashCases h
    · unfold Fine interruptsOff
      rw [run_modS_bind, run_getS_bind, hs]
      simp only [wordAt, List.getElem?_cons_zero, unwrapM_some, run_pure_bind]
      cases w.chdir s.trace s.cwd v with
      | none => exact .inr (.inl ⟨_, rfl⟩)
      | some d => exact .inl rfl

theorem exact_exit (w : World) (s : Sh) {c : SimpleCommand} {vs : List Str} (hw : c.words = vs) :
    Exact True (Crashes w s (cs!"exit") vs) (bExit w c) { s with masked := true } := by
  refine .of_iff crashes_exit ?_
  have hsave : ∃ s1, saveHistory w { s with masked := true } = (.ok (), s1) := by
    unfold saveHistory
    rw [run_getS_bind]
    split <;> exact ⟨_, rfl⟩
  obtain ⟨s1, hsave⟩ := hsave
  unfold Exact Fine bExit
  rw [run_bind_ok hsave, hw]
  cases vs with
  | nil => exact ⟨by simp, fun _ => .inr (.inr (.inl ⟨trivial, _, rfl⟩))⟩
  | cons v vs =>
    exact exact_unwrap (f := fun n => exitM n) (s := s1)
      (show (∃ v' vs', v :: vs = v' :: vs' ∧ ¬ Signed32 v') ↔ _ by
        rw [← none_iff_not parseI32_iff]
        exact ⟨by rintro ⟨_, _, e, h⟩; cases e; exact h, fun h => ⟨_, _, rfl, h⟩⟩)
      (fun a _ => .inr (.inr (.inl ⟨trivial, _, rfl⟩)))

theorem exact_return {q : Prop} (w : World) (s : Sh) {c : SimpleCommand} {vs : List Str} (hw : c.words = vs) :
    Exact q (Crashes w s (cs!"return") vs) (bReturn c) { s with masked := true } := by
  refine .of_iff crashes_return ?_
  unfold bReturn
  rw [hw]
  cases vs with
  | nil => exact ⟨by simp, fun _ => .inl rfl⟩
  | cons v vs =>
    exact exact_unwrap (f := fun n => modS fun s => { s with exitStatus := n })
      (show (∃ v' vs', v :: vs = v' :: vs' ∧ ¬ Signed32 v') ↔ _ by
        rw [← none_iff_not parseI32_iff]
        exact ⟨by rintro ⟨_, _, e, h⟩; cases e; exact h, fun h => ⟨_, _, rfl, h⟩⟩)
      (fun a _ => .inl rfl)

theorem exact_jobs {q : Prop} (w : World) (s : Sh) {vs : List Str} :
    Exact q (Crashes w s (cs!"jobs") vs) bJobs { s with masked := true } := by
  have e : Crashes w s (cs!"jobs") vs ↔ s.jc.table ≠ [] := by
    constructor
    · intro h
      crashCases h
      assumption
    · exact .jobs
  refine .of_iff e ?_
  unfold bJobs displayJobs
  unfold Exact Fine
  rw [bind_assoc, run_getS_bind]
  show (_ → ∃ k, ((showJobs .shared s.jc.table >>= printM) { s with masked := true }).1 = _) ∧ (_ →
    ((showJobs .shared s.jc.table >>= printM) { s with masked := true }).1 = _ ∨ _)
  cases s.jc.table with
  | nil => exact ⟨by simp, fun _ => .inl rfl⟩
  | cons p t => exact ⟨fun _ => ⟨.borrow, rfl⟩, by simp⟩

theorem exact_alias {q : Prop} (w : World) (s : Sh) {c : SimpleCommand} {vs : List Str} (hs : c.suffix = some ⟨[], vs⟩) :
    Exact q (Crashes w s (cs!"alias") vs) (bAlias c) { s with masked := true } := by
  unfold bAlias
  cases vs with
  | nil =>
    refine .of_crash .alias (k := .index) ?_
    rw [run_getS_bind, hs]
    rfl
  | cons v vs =>
    refine .of_fine (fun h => ?_) ?_
    · crashCases h
    · unfold Fine
      rw [run_getS_bind, hs]
      simp only [wordAt, List.getElem?_cons_zero, unwrapM_some, run_pure_bind]
      split
      · exact fine_displayAliases _ _
      · exact fine_addAliases _ _

theorem exact_unalias {q : Prop} (w : World) (s : Sh) {c : SimpleCommand} {vs : List Str} (hs : c.suffix = some ⟨[], vs⟩) :
    Exact q (Crashes w s (cs!"unalias") vs) (bUnalias c) { s with masked := true } := by
  unfold bUnalias
  rw [hs]
  cases vs with
  | nil => exact .of_crash .unalias (k := .index) rfl
  | cons v vs =>
    refine .of_fine (fun h => ?_) ?_
    · crashCases h
    · unfold Fine
      simp only
      split
      · exact .inr (.inl ⟨_, rfl⟩)
      · simp only [wordAt, List.getElem?_cons_zero, unwrapM_some, run_pure_bind]
        split <;> exact .inl rfl

theorem exact_unset {q : Prop} (w : World) (s : Sh) {c : SimpleCommand} {vs : List Str} (hw : c.words = vs) :
    Exact q (Crashes w s (cs!"unset") vs) (bUnset c) { s with masked := true } := by
  have e : Crashes w s (cs!"unset") vs ↔ ∃ v, vs = [v] ∧ '-' ∈ v ∧ ('f' ∈ v ∨ 'c' ∈ v ∨ 'v' ∈ v) := by
    constructor
    · intro h
      crashCases h
      exact ⟨_, rfl, by assumption, by assumption⟩
    · rintro ⟨v, rfl, h1, h2⟩
      exact .unset h1 h2
  refine .of_iff e ?_
  unfold bUnset unsetFlags
  rw [hw]
  cases vs with
  | nil => exact .of_fine (by simp) (.inr (.inl ⟨_, rfl⟩))
  | cons v vs =>
    by_cases h1 : hasChar '-' v = true
    · simp only [h1, if_true]
      have hm := hasChar_iff.1 h1
      by_cases h2 : hasChar 'f' v = true ∨ hasChar 'c' v = true ∨ hasChar 'v' v = true
      · have h2' : 'f' ∈ v ∨ 'c' ∈ v ∨ 'v' ∈ v := by simpa only [hasChar_iff] using h2
        cases vs with
        | nil =>
          refine .of_crash ⟨v, rfl, hm, h2'⟩ (k := .index) ?_
          split
          · rfl
          · split
            · rfl
            · split
              · rfl
              · simp_all
        | cons v2 vs =>
          refine .of_fine (by simp) ?_
          split
          · exact .inl rfl
          · split
            · exact .inl rfl
            · split
              · exact .inl rfl
              · exact .inr (.inl ⟨_, rfl⟩)
      · simp only [not_or, Bool.not_eq_true] at h2
        simp only [h2.1, h2.2.1, h2.2.2, Bool.false_eq_true, if_false]
        refine .of_fine ?_ (.inr (.inl ⟨_, rfl⟩))
        rintro ⟨v', e, -, h⟩
        cases e
        simp only [hasChar_false] at h2
        rcases h with h | h | h
        · exact h2.1 h
        · exact h2.2.1 h
        · exact h2.2.2 h
    · simp only [h1, Bool.false_eq_true, if_false]
      refine .of_fine ?_ (.inl rfl)
      rintro ⟨v', e, h, -⟩
      cases e
      exact h1 (hasChar_iff.2 h)

/-! ### fg and bg -/

theorem crashes_fg {w : World} {s : Sh} {vs : List Str} : Crashes w s (cs!"fg") vs ↔ vs = [] ∨ ∃ v vs', vs = v :: vs' ∧
    (¬ JobRef v ∨ ∃ j, Designates s v j ∧ SomeGone w s j.processes) := by
  constructor
  · intro h
    crashCases h
    · exact .inl rfl
    · exact .inr ⟨_, _, rfl, .inl (by assumption)⟩
    · exact .inr ⟨_, _, rfl, .inr ⟨_, by assumption, by assumption⟩⟩
  · rintro (rfl | ⟨v, vs, rfl, h | ⟨j, h1, h2⟩⟩)
    · exact .fgNone
    · exact .fgRef h
    · exact .fgGone h1 h2

theorem crashes_bg {w : World} {s : Sh} {vs : List Str} : Crashes w s (cs!"bg") vs ↔ vs = [] ∨ ∃ v vs', vs = v :: vs' ∧
    (¬ JobRef v ∨ ∃ j, Designates s v j ∧ SomeGone w s j.processes) := by
  constructor
  · intro h
    crashCases h
    · exact .inl rfl
    · exact .inr ⟨_, _, rfl, .inl (by assumption)⟩
    · exact .inr ⟨_, _, rfl, .inr ⟨_, by assumption, by assumption⟩⟩
  · rintro (rfl | ⟨v, vs, rfl, h | ⟨j, h1, h2⟩⟩)
    · exact .bgNone
    · exact .bgRef h
    · exact .bgGone h1 h2

/-- Continuing processes: a crash if one is gone. -/
theorem contAll_exact (w : World) (ps : List Process) (s : Sh) :
    (SomeGone w s ps ∧ ∃ s', contAll w ps s = (.panic .unwrap, s')) ∨
    (¬ SomeGone w s ps ∧ contAll w ps s = (.ok (), { s with trace := (ps.reverse.map fun q => .kill q.pid) ++ s.trace })) := by
  induction ps generalizing s with
  | nil =>
    refine .inr ⟨?_, rfl⟩
    rintro ⟨pre, p, post, e, -⟩
    simp at e
  | cons p ps ih =>
    by_cases h : w.killOk s.trace p.pid = true
    · have e : contAll w (p :: ps) s = contAll w ps { s with trace := .kill p.pid :: s.trace } := by
        rw [contAll, run_getS_bind, if_pos h]
        rfl
      have hiff : SomeGone w s (p :: ps) ↔ SomeGone w { s with trace := .kill p.pid :: s.trace } ps := by
        constructor
        · rintro ⟨pre, q, post, e, hq⟩
          cases pre with
          | nil =>
            cases e
            have h' : w.killOk s.trace p.pid = false := hq
            rw [h] at h'
            cases h'
          | cons p' pre =>
            cases e
            exact ⟨pre, q, post, rfl, by simpa using hq⟩
        · rintro ⟨pre, q, post, rfl, hq⟩
          exact ⟨p :: pre, q, post, rfl, by simpa using hq⟩
      rw [e, hiff]
      rcases ih { s with trace := .kill p.pid :: s.trace } with ⟨h1, h2⟩ | ⟨h1, h2⟩
      · exact .inl ⟨h1, h2⟩
      · refine .inr ⟨h1, ?_⟩
        rw [h2]
        simp
    · refine .inl ⟨⟨[], p, ps, rfl, by simpa using h⟩, s, ?_⟩
      rw [contAll, run_getS_bind, if_neg h]
      rfl

theorem asI32_eq {n : Nat} (h : n ≤ 4294967295) :
    asI32 n = if n < 2147483648 then (n : Int) else (n : Int) - 4294967296 := by
  unfold asI32
  simp only
  rw [Nat.mod_eq_of_lt (by omega)]

theorem unsigned_le {mx : Nat} {x : Str} {n : Nat} (h : Unsigned mx x n) : n ≤ mx := by
  cases h <;> assumption

theorem unsigned_head {mx : Nat} {x : Str} {n : Nat} (h : Unsigned mx x n) : x ≠ [] ∧ x.head? ≠ some '%' := by
  cases h with
  | plain h1 _ =>
    refine ⟨h1.1, fun h2 => ?_⟩
    exact absurd (digits_head h1 _ h2) (by decide)
  | plus => simp

theorem unsigned_unique {mx : Nat} {x : Str} {n m : Nat} (h : Unsigned mx x n) (h2 : Unsigned mx x m) : n = m := by
  have e := parseUnsigned_iff.2 h
  rw [parseUnsigned_iff.2 h2] at e
  cases e
  rfl

/-- What `fg` and `bg` read their argument as. -/
def refId (v : Str) : M (Nat × IdType) :=
  match v with
  | [] => panicM .unwrap
  | '%' :: ds => do
    let n ← unwrapM .unwrap (parseU32 ds)
    pure (n, .jid)
  | x => do
    let n ← unwrapM .unwrap (parseU32 x)
    pure (n, .pid)

theorem refId_plain {v : Str} (h1 : v ≠ []) (h2 : ¬ ∃ ds, v = '%' :: ds) :
    refId v = (do let n ← unwrapM .unwrap (parseU32 v); pure (n, .pid)) := by
  unfold refId
  split
  · exact absurd rfl h1
  · exact absurd ⟨_, rfl⟩ h2
  · rfl

/-- What `fg` and `bg` do up to the job they designate. -/
theorem fgbg_job (s : Sh) {c : SimpleCommand} {vs : List Str} (hs : c.suffix = some ⟨[], vs⟩)
    (f : Job → M Unit) :
    ((vs = [] ∨ ∃ v vs', vs = v :: vs' ∧ ¬ JobRef v) ∧
      ∃ k, ((do let (id, ty) ← fgbgId c; let j ← findJob id ty; f j : M Unit) s).1 = .panic k) ∨
    (∃ v vs', vs = v :: vs' ∧ JobRef v ∧ (∀ j, ¬ Designates s v j) ∧
      ∃ e, ((do let (id, ty) ← fgbgId c; let j ← findJob id ty; f j : M Unit) s) = (.err e, s)) ∨
    (∃ v vs' j, vs = v :: vs' ∧ JobRef v ∧ (∀ j', Designates s v j' ↔ j' = j) ∧
      (do let (id, ty) ← fgbgId c; let j ← findJob id ty; f j : M Unit) s = f j s) := by
  have hu32 : ∀ {x n}, parseU32 x = some n ↔ Unsigned 4294967295 x n := parseUnsigned_iff
  cases vs with
  | nil =>
    refine .inl ⟨.inl rfl, .index, ?_⟩
    unfold fgbgId
    rw [hs]
    rfl
  | cons v vs =>
    have h0 : fgbgId c s = refId v s := by
      unfold fgbgId
      rw [hs]
      rfl
    have hcrash : ¬ JobRef v → (∃ k, fgbgId c s = (.panic k, s)) → ((v :: vs = [] ∨ ∃ v' vs', v :: vs = v' :: vs' ∧ ¬ JobRef v') ∧
      ∃ k, ((do let (id, ty) ← fgbgId c; let j ← findJob id ty; f j : M Unit) s).1 = .panic k) := by
      rintro h1 ⟨k, hk⟩
      refine ⟨.inr ⟨_, _, rfl, h1⟩, k, ?_⟩
      rw [run_bind, hk]
    have hrest : ∀ n ty (o : Option Job), fgbgId c s = (.ok (n, ty), s) → JobRef v → (∀ j, Designates s v j ↔ o = some j) →
        (o = none → ∃ e, findJob n ty s = (.err e, s)) → (∀ j, o = some j → findJob n ty s = (.ok j, s)) →
        (∃ v' vs', v :: vs = v' :: vs' ∧ JobRef v' ∧ (∀ j, ¬ Designates s v' j) ∧
          ∃ e, ((do let (id, ty) ← fgbgId c; let j ← findJob id ty; f j : M Unit) s) = (.err e, s)) ∨
        (∃ v' vs' j, v :: vs = v' :: vs' ∧ JobRef v' ∧ (∀ j', Designates s v' j' ↔ j' = j) ∧
          (do let (id, ty) ← fgbgId c; let j ← findJob id ty; f j : M Unit) s = f j s) := by
      intro n ty o h1 h2 h3 h4 h5
      cases o with
      | none =>
        obtain ⟨e, h4⟩ := h4 rfl
        have hd : ∀ j, ¬ Designates s v j := fun j hj => nomatch (h3 j).1 hj
        refine .inl ⟨_, _, rfl, h2, hd, e, ?_⟩
        rw [run_bind_ok h1]
        simp only
        rw [run_bind, h4]
      | some j =>
        refine .inr ⟨_, _, j, rfl, h2, fun j' => ?_, ?_⟩
        · rw [h3, Option.some.injEq]
          exact eq_comm
        · rw [run_bind_ok h1]
          simp only
          rw [run_bind_ok (h5 j rfl)]
    by_cases hv : ∃ ds, v = '%' :: ds
    · obtain ⟨ds, rfl⟩ := hv
      have hp : ∀ n, ¬ Unsigned 4294967295 ('%' :: ds) n := fun n h => (unsigned_head h).2 rfl
      rcases hn : parseU32 ds with _ | n
      · refine .inl (hcrash ?_ ⟨.unwrap, ?_⟩)
        · rintro (⟨n, h⟩ | ⟨ds', n, e, h⟩)
          · exact hp n h
          · cases e
            rw [hu32.2 h] at hn
            cases hn
        · rw [h0, refId, hn]
          rfl
      · refine .inr (hrest n .jid (s.jc.getJob n) ?_ (.inr ⟨ds, n, rfl, hu32.1 hn⟩) (fun j => ?_) ?_ ?_)
        · rw [h0, refId, hn]
          rfl
        · constructor
          · intro h
            generalize hx : '%' :: ds = x at h
            cases h with
            | job h1 h2 =>
              cases hx
              rw [unsigned_unique (hu32.1 hn) h1]
              exact h2
            | pid h1 _ =>
              subst hx
              exact absurd h1 (hp _)
          · exact fun h => .job (hu32.1 hn) h
        · intro h
          simp only [findJob, run_getS_bind, h]
          exact ⟨_, rfl⟩
        · intro j h
          simp only [findJob, run_getS_bind, h]
          rfl
    · have h0' : v ≠ [] → fgbgId c s = (do
        let n ← unwrapM .unwrap (parseU32 v)
        pure (n, .pid) : M (Nat × IdType)) s := fun hne => by rw [h0, refId_plain hne hv]
      rcases hn : parseU32 v with _ | n
      · refine .inl (hcrash ?_ ⟨.unwrap, ?_⟩)
        · rintro (⟨n, h⟩ | ⟨ds', n, e, h⟩)
          · rw [hu32.2 h] at hn
            cases hn
          · exact hv ⟨_, e⟩
        · by_cases hne : v = []
          · rw [h0, hne]
            rfl
          · rw [h0' hne, hn]
            rfl
      · have hu := hu32.1 hn
        refine .inr (hrest n .pid (s.jc.getJobPid (asI32 n)) ?_ (.inl ⟨n, hu⟩) (fun j => ?_) ?_ ?_)
        · rw [h0' (unsigned_head hu).1, hn]
          rfl
        · rw [asI32_eq (unsigned_le hu)]
          constructor
          · intro h
            cases h with
            | job => exact absurd ⟨_, rfl⟩ hv
            | pid h1 h2 =>
              rw [unsigned_unique hu h1]
              exact h2
          · exact fun h => .pid hu h
        · intro h
          simp only [findJob, run_getS_bind, h]
          exact ⟨_, rfl⟩
        · intro j h
          simp only [findJob, run_getS_bind, h]
          rfl

theorem designates_congr {s s' : Sh} {v : Str} {j : Job} (h : s'.jc = s.jc) (hd : Designates s v j) : Designates s' v j := by
  cases hd with
  | job h1 h2 => exact .job h1 (by rw [h]; exact h2)
  | pid h1 h2 => exact .pid h1 (by rw [h]; exact h2)

theorem resume_exact (w : World) (s : Sh) (j : Job) (b : Bool) (hh : s.held = []) :
    (SomeGone w s j.processes ∧ ∃ k, (resume w j b s).1 = .panic k) ∨
    (¬ SomeGone w s j.processes ∧ ∃ s', resume w j b s = (.ok (), s')) := by
  have e : resume w j b s = (do
      contAll w j.processes
      printlnM (cs!"[" ++ natStr j.jobId ++ cs!"] " ++ Job.show { j with state := .running, background := b }) : M Unit)
      { s with jc := s.jc.modJob j.jobId fun j => { j with state := .running, background := b } } := by
    unfold resume
    rw [run_getS_bind, if_neg (by rw [hh]; simp)]
    rfl
  rw [e]
  rcases contAll_exact w j.processes
    { s with jc := s.jc.modJob j.jobId fun j => { j with state := .running, background := b } } with ⟨h1, s', h2⟩ | ⟨h1, h2⟩
  · refine .inl ⟨h1, .unwrap, ?_⟩
    rw [run_bind, h2]
  · refine .inr ⟨h1, ?_⟩
    rw [run_bind_ok h2]
    exact ⟨_, rfl⟩

theorem exact_bg {q : Prop} (w : World) (s : Sh) (hh : s.held = []) {c : SimpleCommand} {vs : List Str} (hn : c.name = cs!"bg")
    (hs : c.suffix = some ⟨[], vs⟩) : Exact q (Crashes w s (cs!"bg") vs) (bFgBg w c) { s with masked := true } := by
  refine .of_iff crashes_bg ?_
  have e : bFgBg w c { s with masked := true } = (do
      let (id, ty) ← fgbgId c
      let j ← findJob id ty
      (do resume w j true; interruptsOn) : M Unit) { s with masked := true } := by
    unfold bFgBg
    simp only [hn, show ¬ (cs!"bg" = cs!"fg") by decide, if_false]
    rfl
  refine .congr e ?_
  rcases fgbg_job { s with masked := true } hs (fun j => do resume w j true; interruptsOn) with
    ⟨h1, h2⟩ | ⟨v, vs', rfl, h1, h2, h3⟩ | ⟨v, vs', j, rfl, h1, h2, h3⟩
  · refine .of_crash ?_ h2.choose_spec
    rcases h1 with h1 | ⟨v, vs', h1, h3⟩
    · exact .inl h1
    · exact .inr ⟨v, vs', h1, .inl h3⟩
  · refine .of_fine ?_ (.inr (.inl (h3.imp fun _ h => congrArg Prod.fst h)))
    rintro (h | ⟨v', vs'', e, h | ⟨j, hj, -⟩⟩)
    · cases h
    · cases e
      exact h h1
    · cases e
      exact h2 j (designates_congr (s := s) rfl hj)
  · refine .congr h3 ?_
    have hj : Designates s v j := designates_congr (s := { s with masked := true }) rfl ((h2 j).2 rfl)
    rcases resume_exact w { s with masked := true } j true hh with ⟨h4, k, h5⟩ | ⟨h4, s', h5⟩
    · refine .of_crash (k := k) (.inr ⟨v, vs', rfl, .inr ⟨j, hj, h4⟩⟩) ?_
      rw [run_bind]
      generalize resume w j true { s with masked := true } = r at h5
      obtain ⟨o, s'⟩ := r
      cases h5
      rfl
    · refine .of_fine ?_ (.inl ?_)
      · rintro (h | ⟨v', vs'', e, h | ⟨j', hj', hg⟩⟩)
        · cases h
        · cases e
          exact h h1
        · cases e
          cases (h2 j').1 (designates_congr (s := s) rfl hj')
          exact h4 hg
      · rw [run_bind_ok h5]
        rfl

/-- `fg`, unless there is a job to wait for. -/
theorem exact_fg {q : Prop} (w : World) (s : Sh) (hh : s.held = []) {c : SimpleCommand} {vs : List Str} (hn : c.name = cs!"fg")
    (hs : c.suffix = some ⟨[], vs⟩)
    (hw : ∀ v ∈ vs.head?, ∀ j, Designates s v j → SomeGone w s j.processes) :
    Exact q (Crashes w s (cs!"fg") vs) (bFgBg w c) { s with masked := true } := by
  refine .of_iff crashes_fg ?_
  have e : bFgBg w c { s with masked := true } = (do
      let (id, ty) ← fgbgId c
      let j ← findJob id ty
      (do resume w j false; let _ ← waitForJob w j.jobId; interruptsOn) : M Unit) { s with masked := true } := by
    unfold bFgBg
    simp only [hn, if_true]
    rfl
  refine .congr e ?_
  rcases fgbg_job { s with masked := true } hs (fun j => do resume w j false; let _ ← waitForJob w j.jobId; interruptsOn) with
    ⟨h1, h2⟩ | ⟨v, vs', rfl, h1, h2, h3⟩ | ⟨v, vs', j, rfl, h1, h2, h3⟩
  · refine .of_crash ?_ h2.choose_spec
    rcases h1 with h1 | ⟨v, vs', h1, h3⟩
    · exact .inl h1
    · exact .inr ⟨v, vs', h1, .inl h3⟩
  · refine .of_fine ?_ (.inr (.inl (h3.imp fun _ h => congrArg Prod.fst h)))
    rintro (h | ⟨v', vs'', e, h | ⟨j, hj, -⟩⟩)
    · cases h
    · cases e
      exact h h1
    · cases e
      exact h2 j (designates_congr (s := s) rfl hj)
  · refine .congr h3 ?_
    have hj : Designates s v j := designates_congr (s := { s with masked := true }) rfl ((h2 j).2 rfl)
    have hg := hw v rfl j hj
    rcases resume_exact w { s with masked := true } j false hh with ⟨h4, k, h5⟩ | ⟨h4, s', h5⟩
    · refine .of_crash (k := k) (.inr ⟨v, vs', rfl, .inr ⟨j, hj, h4⟩⟩) ?_
      rw [run_bind]
      generalize resume w j false { s with masked := true } = r at h5
      obtain ⟨o, s'⟩ := r
      cases h5
      rfl
    · exact absurd hg h4

/-! ### export -/

/-- A word `NAME=VALUE` that crashes `export`. -/
def BadSet (x : Str) : Prop :=
  ∃ k r, x = k ++ '=' :: r ∧ '=' ∉ k ∧
    (¬ Storable x ∨ k = [] ∨ '\x00' ∈ k ∨ '\x00' ∈ r.takeWhile (fun c => decide (c ≠ '=')))

theorem crashes_export {w : World} {s : Sh} {x : Str} {xs : List Str} : Crashes w s (cs!"export") (x :: xs) ↔
    (¬ ∃ a b, x = a ++ cs!"-p" ++ b) ∧ (((∀ y ∈ x :: xs, '=' ∈ y) ∧ ∃ y ∈ x :: xs, BadSet y) ∨
      (xs = [] ∧ '=' ∉ x ∧ x ≠ cs!"context" ∧ ∃ b, s.ctx.getVar x = some b ∧ ¬ Storable (x ++ '=' :: b.value))) := by
  constructor
  · intro h
    generalize hv : x :: xs = vs at h
    crashCases h
    · cases hv
      exact ⟨by assumption, .inl ⟨by assumption, _, by assumption, _, _, rfl, by assumption, by assumption⟩⟩
    · cases hv
      exact ⟨by assumption, .inr ⟨rfl, by assumption, by assumption, _, by assumption, by assumption⟩⟩
  · rintro ⟨h1, ⟨h0, y, hy, k, r, rfl, h2, h3⟩ | ⟨rfl, h2, h3, b, h4, h5⟩⟩
    · exact .exportSet h0 h1 hy h2 h3
    · exact .exportName (b := b) h2 h1 h3 h4 h5

theorem nul_trimQuotes {v : Str} : '\x00' ∈ trimQuotes v ↔ '\x00' ∈ v := by
  unfold trimQuotes
  split
  · rename_i h
    have key : ∀ q : Char, q ≠ '\x00' → (startsWith [q] v && endsWith [q] v) = true → ('\x00' ∈ v.tail.dropLast ↔ '\x00' ∈ v) := by
      intro q hq h
      simp only [Bool.and_eq_true] at h
      cases v with
      | nil => simp
      | cons a v =>
        have ha : a = q := by
          have := h.1
          simp only [startsWith, List.isPrefixOf_cons_cons, beq_iff_eq, Bool.and_eq_true] at this
          exact this.1.symm
        subst ha
        rcases List.eq_nil_or_concat v with rfl | ⟨v, b, rfl⟩
        · simp [Ne.symm hq]
        · have hb : b = a := by
            have := h.2
            rw [endsWith, List.isSuffixOf_iff_suffix, List.concat_eq_append, ← List.cons_append] at this
            obtain ⟨t, ht⟩ := this
            exact (List.append_inj' ht rfl).2 |> fun h => by cases h; rfl
          subst hb
          simp [Ne.symm hq]
    simp only [Bool.or_eq_true] at h
    rcases h with h | h
    · exact key _ (by decide) h
    · exact key _ (by decide) h
  · rfl

theorem exportAll_one (x : Str) (s : Sh) : exportAll [x] s = (if hasChar '=' x then exportSet x else exportName x) s := by
  have key : ∀ m : M Unit, (do m; pure ()) s = m s := by
    intro m
    rw [run_bind]
    rcases m s with ⟨o, s'⟩
    cases o <;> rfl
  unfold exportAll exportAll
  simp only
  split <;> exact key _

theorem exportSet_exact {x : Str} (heq : '=' ∈ x) (s : Sh) (hst : s.ctx.stack ≠ []) :
    (BadSet x ∧ ∃ k, (exportSet x s).1 = .panic k) ∨
    (¬ BadSet x ∧ ∃ s', exportSet x s = (.ok (), s') ∧ s'.ctx.stack = s.ctx.stack) := by
  have hat : s.ctx.atPos 0 = some (s.ctx.stack.getLast hst) := by
    unfold CtxMgr.atPos
    rw [← List.head?_eq_getElem?, List.head?_reverse, List.getLast?_eq_some_getLast hst]
  obtain ⟨k, r, e, hk⟩ := List.eq_append_cons_of_mem heq
  subst e
  have hbad : BadSet (k ++ '=' :: r) ↔
      (¬ Storable (k ++ '=' :: r) ∨ k = [] ∨ '\x00' ∈ k ∨ '\x00' ∈ r.takeWhile (fun c => decide (c ≠ '='))) := by
    constructor
    · rintro ⟨k', r', e, hk', h⟩
      have e1 := splitSet_eq k r hk
      rw [e, splitSet_eq k' r' hk'] at e1
      have e2 : k' = k := congrArg Prod.fst e1
      subst e2
      cases List.append_cancel_left e
      exact h
    · exact fun h => ⟨k, r, rfl, hk, h⟩
  have e2 : exportSet (k ++ '=' :: r) s = (do
      addVarAt (k ++ '=' :: r) 0
      setEnv k (trimQuotes (r.takeWhile (fun c => decide (c ≠ '=')))) : M Unit) s := by
    unfold exportSet
    rw [splitSet_eq _ _ hk]
  rw [e2, hbad]
  by_cases hs : Storable (k ++ '=' :: r)
  · have e3 : ∃ m, addVarAt (k ++ '=' :: r) 0 s = (.ok (), { s with ctx := m }) ∧ m.stack = s.ctx.stack := by
      unfold addVarAt
      simp only [run_getS_bind, CtxMgr.addVarPos, hat, Option.bind_some, Ctx.addSet, splitSet_eq _ _ hk, keyOk_iff.2 hs,
        if_true, Option.map_some, unwrapM_some, run_pure_bind]
      exact ⟨_, rfl, rfl⟩
    obtain ⟨m, e3, hm⟩ := e3
    rw [run_bind_ok e3]
    unfold setEnv
    by_cases h : k = [] ∨ hasChar '=' k = true ∨ hasChar '\x00' k = true ∨
        hasChar '\x00' (trimQuotes (r.takeWhile (fun c => decide (c ≠ '=')))) = true
    · refine .inl ⟨?_, .explicit, ?_⟩
      · rcases h with h | h | h | h
        · exact .inr (.inl h)
        · exact absurd (hasChar_iff.1 h) hk
        · exact .inr (.inr (.inl (hasChar_iff.1 h)))
        · exact .inr (.inr (.inr (nul_trimQuotes.1 (hasChar_iff.1 h))))
      · show (ite _ _ _ : Out Unit × Sh).1 = _
        rw [if_pos h]
    · refine .inr ⟨fun hn => h ?_, _, if_neg h, hm⟩
      rcases hn with hn | hn | hn | hn
      · exact absurd hs hn
      · exact .inl hn
      · exact .inr (.inr (.inl (hasChar_iff.2 hn)))
      · exact .inr (.inr (.inr (hasChar_iff.2 (nul_trimQuotes.2 hn))))
  · refine .inl ⟨.inl hs, .unwrap, ?_⟩
    have hk0 : keyOk (k ++ '=' :: r) = false := by
      rw [← Bool.not_eq_true, keyOk_iff]
      exact hs
    unfold addVarAt
    simp only [bind_assoc, run_getS_bind, CtxMgr.addVarPos, hat, Option.bind_some, Ctx.addSet, hk0, Bool.false_eq_true,
      if_false, Option.map_none]
    rfl

theorem exportAll_exact {q : Prop} {xs : List Str} (heq : ∀ y ∈ xs, '=' ∈ y) (s : Sh) (hst : s.ctx.stack ≠ []) :
    Exact q (∃ y ∈ xs, BadSet y) (exportAll xs) s := by
  induction xs generalizing s with
  | nil => exact .of_fine (by simp) (.inl rfl)
  | cons x xs ih =>
    have hx : exportAll (x :: xs) s = (exportSet x >>= fun _ => exportAll xs) s := by
      rw [exportAll]
      dsimp only
      rw [if_pos (hasChar_iff.2 (heq x List.mem_cons_self))]
    refine .congr hx ?_
    rcases exportSet_exact (heq x List.mem_cons_self) s hst with ⟨h1, k, h2⟩ | ⟨h1, s', h2, h3⟩
    · refine .of_crash (k := k) ⟨x, List.mem_cons_self, h1⟩ ?_
      rw [run_bind]
      generalize exportSet x s = r at h2
      obtain ⟨o, s'⟩ := r
      cases h2
      rfl
    · refine .congr (m' := exportAll xs) (s' := s') (run_bind_ok h2 _) (.of_iff ?_ (ih (fun y hy => heq y (List.mem_cons_of_mem _ hy)) s' (by rw [h3]; exact hst)))
      constructor
      · rintro ⟨y, hy, hb⟩
        rcases List.mem_cons.1 hy with rfl | hy
        · exact absurd hb h1
        · exact ⟨y, hy, hb⟩
      · rintro ⟨y, hy, hb⟩
        exact ⟨y, List.mem_cons_of_mem _ hy, hb⟩

theorem exact_export {q : Prop} (w : World) (rec : List AndOr → M Int) (s : Sh) (hg : Good s.ctx) {c : SimpleCommand} {vs : List Str}
    (hw : c.words = vs) (hl : vs.length ≤ 1 ∨ ∀ v ∈ vs, '=' ∈ v) :
    Exact q (Crashes w s (cs!"export") vs) (bExport w rec c) { s with masked := true } := by
  have hst := hg.nonempty
  have henv : s.ctx.envCtx = some (s.ctx.stack.getLast hst) := List.getLast?_eq_some_getLast hst
  cases vs with
  | nil =>
    refine .of_fine (fun h => by crashCases h) ?_
    unfold bExport Fine
    rw [hw]
    exact fine_printEnv _ _
  | cons x xs =>
    refine .of_iff crashes_export ?_
    by_cases hp : hasSub (cs!"-p") x = true
    · refine .of_fine (fun h => h.1 ((hasSub_iff ..).1 hp)) ?_
      unfold bExport Fine
      rw [hw]
      simp only [hp, if_true]
      exact fine_printEnv _ _
    have hp' : ¬ ∃ a b, x = a ++ cs!"-p" ++ b := fun h => hp ((hasSub_iff ..).2 h)
    by_cases hall : ∀ y ∈ x :: xs, '=' ∈ y
    · have hx : x ≠ cs!"context" := by
        rintro rfl
        exact absurd (hall _ List.mem_cons_self) (by decide)
      have e : bExport w rec c { s with masked := true } = exportAll (x :: xs) { s with masked := true } := by
        unfold bExport
        rw [hw]
        simp only [hp, hx, Bool.false_eq_true, if_false]
      refine .congr e (.of_iff ?_ (exportAll_exact hall _ hst))
      constructor
      · rintro ⟨-, ⟨-, h⟩ | ⟨-, h, -⟩⟩
        · exact h
        · exact absurd (hall x List.mem_cons_self) h
      · exact fun h => ⟨hp', .inl ⟨hall, h⟩⟩
    have hxs : xs = [] := by
      rcases hl with hl | hl
      · simpa using hl
      · exact absurd hl hall
    subst hxs
    have heq : '=' ∉ x := fun h => hall (by simpa using h)
    by_cases hx : x = cs!"context"
    · refine .of_fine ?_ ?_
      · rintro ⟨-, ⟨h, -⟩ | h⟩
        · exact hall h
        · exact h.2.2.1 hx
      · unfold bExport Fine
        rw [hw]
        simp only [hx, if_true]
        exact .inr (.inl ⟨_, rfl⟩)
    have e : bExport w rec c { s with masked := true } =
        (if hasChar '=' x then exportSet x else exportName x) { s with masked := true } := by
      rw [← exportAll_one]
      unfold bExport
      rw [hw]
      simp only [hp, hx, Bool.false_eq_true, if_false]
    refine .congr e ?_
    have h1 : hasChar '=' x = false := hasChar_false.2 heq
    refine .of_iff (q := ∃ b, s.ctx.getVar x = some b ∧ ¬ Storable (x ++ '=' :: b.value)) ?_ ?_
    · constructor
      · rintro ⟨-, ⟨h, -⟩ | h⟩
        · exact absurd h hall
        · exact h.2.2.2
      · exact fun h => ⟨hp', .inr ⟨rfl, heq, hx, h⟩⟩
    rw [if_neg (by simp [h1])]
    cases hv : s.ctx.getVar x with
    | none =>
      refine .of_fine (by simp) ?_
      have := fine_exportOne (q := q) (s := { s with masked := true }) heq hst hv
      unfold Fine at this ⊢
      rw [exportAll_one, if_neg (by simp [h1])] at this
      exact this
    | some b =>
      refine .of_iff (q := ¬ Storable (x ++ '=' :: b.value)) (by simp) ?_
      have e2 : exportName x { s with masked := true } = (do
          let c ← unwrapM .unwrap ((s.ctx.heap (s.ctx.stack.getLast hst)).addSet (x ++ '=' :: b.value))
          setCtxMgr (s.ctx.setCtx (s.ctx.stack.getLast hst) c) : M Unit) { s with masked := true } := by
        unfold exportName expandVar
        simp only [reduceCtorEq, if_false, run_getS_bind, bind_assoc, run_pure_bind, hv, Option.map_some, henv, unwrapM_some]
      refine .congr e2 (exact_unwrap ?_ fun _ _ => .inl rfl)
      rw [← keyOk_iff]
      unfold Ctx.addSet
      simp only
      split <;> simp_all

/-! ### readonly -/

/-- The first option of `readonly`, computed. -/
def roFirst (x : Str) : Option (Flags × Bool) :=
  if '-' ∉ x then none
  else if 'f' ∈ x then some (.function, false)
  else if 'c' ∈ x then some (.context, false)
  else if 'v' ∈ x then some (.variable, false)
  else if 'p' ∈ x then some (.variable, true)
  else none

theorem roFirst_iff {x : Str} {k : Flags} {l : Bool} : RoFirst x k l ↔ roFirst x = some (k, l) := by
  unfold roFirst
  constructor
  · intro h
    cases h <;> simp_all
  · intro h
    by_cases h1 : '-' ∈ x
    · rw [if_neg (by simpa using h1)] at h
      split at h
      · cases h
        exact .function h1 (by assumption)
      · split at h
        · cases h
          exact .context h1 (by assumption) (by assumption)
        · split at h
          · cases h
            exact .variable h1 (by assumption) (by assumption) (by assumption)
          · split at h
            · cases h
              exact .list h1 (by assumption) (by assumption) (by assumption) (by assumption)
            · cases h
    · rw [if_pos h1] at h
      cases h

theorem readonlyFlags_plain {x : Str} (h : '-' ∉ x) : readonlyFlags x = pure (.variable, 0, false) := by
  have : hasChar '-' x = false := by rw [← Bool.not_eq_true, hasChar_iff]; exact h
  simp [readonlyFlags, this]

theorem readonlyFlags_some {x : Str} {k : Flags} {l : Bool} (h : RoFirst x k l) : readonlyFlags x = pure (k, 1, l) := by
  have hh : ∀ c : Char, c ∉ x → hasChar c x = false := fun c hc => by rw [← Bool.not_eq_true, hasChar_iff]; exact hc
  have hy : ∀ c : Char, c ∈ x → hasChar c x = true := fun c hc => (hasChar_iff ..).2 hc
  unfold readonlyFlags
  cases h <;> simp_all

theorem readonlyFlags_bad {x : Str} (h1 : '-' ∈ x) (h : ∀ k l, ¬ RoFirst x k l) : ∃ e, readonlyFlags x = throwE e := by
  have h0 : roFirst x = none := by
    cases hr : roFirst x with
    | none => rfl
    | some p => exact absurd (roFirst_iff.2 hr) (h p.1 p.2)
  unfold roFirst at h0
  rw [if_neg (by simpa using h1)] at h0
  unfold readonlyFlags
  simp only [hasChar_iff, h1, if_true]
  by_cases h2 : 'f' ∈ x
  · simp [h2] at h0
  by_cases h3 : 'c' ∈ x
  · simp [h2, h3] at h0
  by_cases h4 : 'v' ∈ x
  · simp [h2, h3, h4] at h0
  by_cases h5 : 'p' ∈ x
  · simp [h2, h3, h4, h5] at h0
  simp only [h2, h3, h4, h5, if_false]
  exact ⟨_, rfl⟩

/-- What `readonly` does after its options: `rest` are the words that remain. -/
def roRest (s : Sh) (k : Flags) (l : Bool) (rest : List Str) : M Unit :=
  if l then
    match k with
    | .function => printNames s.ctx.allReadonlyFuncs
    | .variable => do
      printReadonly s.ctx.allReadonlyVars
      printReadonly s.ctx.allReadonlyVars
    | .context =>
      match rest.head? with
      | none => throwE (cs!"readonly needs an argument")
      | some a => do
        printReadonly (s.ctx.allReadonlyVarsOf a)
        printReadonly s.ctx.allReadonlyVars
  else
    match k with
    | .function => printNames s.ctx.allReadonlyFuncs
    | _ =>
      match rest.head? with
      | none => throwE (cs!"readonly needs an argument")
      | some a =>
        if hasChar '=' a then do
          let m ← unwrapM .unwrap (s.ctx.addVarReadonly a)
          setCtxMgr m
        else do
          let m ← unwrapM .unwrap (s.ctx.setVarReadonly a)
          setCtxMgr m

theorem readonly_tail (s : Sh) (ws : List Str) (k : Flags) (pos : Nat) (l : Bool) :
    ((if l then readonlyPrint k ws pos
    else do
      let s ← getS
      match k with
      | .function => printNames s.ctx.allReadonlyFuncs
      | _ =>
        match ws[pos]? with
        | none => throwE (cs!"readonly needs an argument")
        | some a =>
          if hasChar '=' a then do
            let m ← unwrapM .unwrap (s.ctx.addVarReadonly a)
            setCtxMgr m
          else do
            let m ← unwrapM .unwrap (s.ctx.setVarReadonly a)
            setCtxMgr m) : M Unit) s = roRest s k l (ws.drop pos) s := by
  unfold roRest
  rw [List.head?_drop]
  cases l
  · simp only [Bool.false_eq_true, if_false, run_getS_bind]
  · simp only [if_true, readonlyPrint, run_getS_bind]
    cases k <;> rfl

/-- What `readonly` does. -/
theorem bReadonly_opts (s : Sh) {c : SimpleCommand} {vs : List Str} (hw : c.words = vs) :
    (∃ k l rest, RoOpts vs k l rest ∧ (∀ k' l' rest', RoOpts vs k' l' rest' ↔ k' = k ∧ l' = l ∧ rest' = rest) ∧
      (∀ x k l, vs = [x] → ¬ RoFirst x k l) ∧ bReadonly c s = roRest s k l rest s) ∨
    ((∃ x k l, vs = [x] ∧ RoFirst x k l) ∧ (∀ k l rest, ¬ RoOpts vs k l rest) ∧ ∃ p, (bReadonly c s).1 = .panic p) ∨
    ((∀ x k l, vs = [x] → ¬ RoFirst x k l) ∧ (∀ k l rest, ¬ RoOpts vs k l rest) ∧ ∃ e, (bReadonly c s).1 = .err e) := by
  have hdash : ∀ {x k l}, RoFirst x k l → '-' ∈ x := fun h => by cases h <;> assumption
  rcases vs with _ | ⟨x, vs⟩
  · refine .inr (.inr ⟨by simp, fun k l rest h => (nomatch h), ?_⟩)
    unfold bReadonly
    rw [hw]
    exact ⟨_, rfl⟩
  · by_cases h1 : '-' ∈ x
    · by_cases h2 : ∃ k l, RoFirst x k l
      · obtain ⟨k, l, h2⟩ := h2
        have huniq : ∀ {k' l'}, RoFirst x k' l' → k' = k ∧ l' = l := by
          intro k' l' h
          have := roFirst_iff.1 h
          rw [roFirst_iff.1 h2] at this
          cases this
          exact ⟨rfl, rfl⟩
        rcases vs with _ | ⟨y, vs⟩
        · refine .inr (.inl ⟨⟨x, k, l, rfl, h2⟩, ?_, .index, ?_⟩)
          · intro k l rest h
            cases h with
            | none h => exact h h1
          · unfold bReadonly
            rw [hw]
            simp only [readonlyFlags_some h2, run_pure_bind]
            rfl
        · by_cases h3 : '-' ∈ y
          · have h3' : hasChar '-' y = true := (hasChar_iff ..).2 h3
            by_cases h4 : 'p' ∈ y
            · have h4' : hasChar 'p' y = true := (hasChar_iff ..).2 h4
              refine .inl ⟨k, true, vs, .two h2 h3 h4, ?_, by simp, ?_⟩
              · intro k' l' rest'
                constructor
                · intro h
                  cases h with
                  | none h => exact absurd h1 h
                  | one _ h => exact absurd h3 h
                  | two h => exact ⟨(huniq h).1, rfl, rfl⟩
                · rintro ⟨rfl, rfl, rfl⟩
                  exact .two h2 h3 h4
              · unfold bReadonly
                rw [hw]
                simp only [readonlyFlags_some h2, run_pure_bind, wordAt, List.getElem?_cons_succ, List.getElem?_cons_zero,
                  unwrapM_some, readonlyFlags2, h3', h4', if_true]
                exact readonly_tail s (x :: y :: vs) k 2 true
            · have h4' : hasChar 'p' y = false := by rw [← Bool.not_eq_true, hasChar_iff]; exact h4
              refine .inr (.inr ⟨by simp, ?_, ?_⟩)
              · intro k l rest h
                cases h with
                | none h => exact absurd h1 h
                | one _ h => exact absurd h3 h
                | two _ _ h => exact absurd h h4
              · unfold bReadonly
                rw [hw]
                simp only [readonlyFlags_some h2, run_pure_bind, wordAt, List.getElem?_cons_succ, List.getElem?_cons_zero,
                  unwrapM_some, readonlyFlags2, h3', h4', if_true]
                exact ⟨_, rfl⟩
          · have h3' : hasChar '-' y = false := by rw [← Bool.not_eq_true, hasChar_iff]; exact h3
            refine .inl ⟨k, l, y :: vs, .one h2 h3, ?_, by simp, ?_⟩
            · intro k' l' rest'
              constructor
              · intro h
                cases h with
                | none h => exact absurd h1 h
                | one h => exact ⟨(huniq h).1, (huniq h).2, rfl⟩
                | two _ h => exact absurd h h3
              · rintro ⟨rfl, rfl, rfl⟩
                exact .one h2 h3
            · unfold bReadonly
              rw [hw]
              simp only [readonlyFlags_some h2, run_pure_bind, wordAt, List.getElem?_cons_succ, List.getElem?_cons_zero,
                unwrapM_some, readonlyFlags2, h3', Bool.false_eq_true, if_false]
              exact readonly_tail s (x :: y :: vs) k 1 l
      · have h2' : ∀ k l, ¬ RoFirst x k l := fun k l h => h2 ⟨k, l, h⟩
        obtain ⟨e, he⟩ := readonlyFlags_bad h1 h2'
        refine .inr (.inr ⟨?_, ?_, e, ?_⟩)
        · intro x' k l e
          cases e
          exact h2' k l
        · intro k l rest h
          cases h with
          | none h => exact absurd h1 h
          | one h => exact h2' _ _ h
          | two h => exact h2' _ _ h
        · unfold bReadonly
          rw [hw]
          simp only [he]
          rfl
    · have h1' : hasChar '-' x = false := by rw [← Bool.not_eq_true, hasChar_iff]; exact h1
      refine .inl ⟨.variable, false, x :: vs, .none h1, ?_, ?_, ?_⟩
      · intro k' l' rest'
        constructor
        · intro h
          cases h with
          | none h => exact ⟨rfl, rfl, rfl⟩
          | one h => exact absurd (hdash h) h1
          | two h => exact absurd (hdash h) h1
        · rintro ⟨rfl, rfl, rfl⟩
          exact .none h1
      · intro x' k l e
        cases e
        exact fun h => h1 (hdash h)
      · unfold bReadonly
        rw [hw]
        simp only [readonlyFlags_plain h1, run_pure_bind, wordAt, List.getElem?_cons_zero,
          unwrapM_some, readonlyFlags2, h1', Bool.false_eq_true, if_false]
        exact readonly_tail s (x :: vs) .variable 0 false

theorem roNames_iff {c : Ctx} : CtxMgr.roNames c ≠ [] ↔ ∃ p ∈ c.vars, p.2.readonly = true := by
  unfold CtxMgr.roNames
  rw [ne_eq, List.map_eq_nil_iff, List.filter_eq_nil_iff]
  simp

theorem allReadonlyVars_iff {s : Sh} : s.ctx.allReadonlyVars ≠ [] ↔ SomeReadonly s (InUse s) := by
  unfold CtxMgr.allReadonlyVars SomeReadonly InUse
  rw [ne_eq, List.append_eq_nil_iff, List.flatMap_eq_nil_iff, List.flatMap_eq_nil_iff]
  simp only [← roNames_iff]
  constructor
  · intro h
    by_cases h1 : ∀ i ∈ s.ctx.stack, CtxMgr.roNames (s.ctx.heap i) = []
    · have h2 : ¬ ∀ p ∈ s.ctx.exported, CtxMgr.roNames (s.ctx.heap p.2) = [] := fun h2 => h ⟨h1, h2⟩
      simp only [Classical.not_forall] at h2
      obtain ⟨p, hp, h2⟩ := h2
      exact ⟨p.2, .inr ⟨p.1, hp⟩, h2⟩
    · simp only [Classical.not_forall] at h1
      obtain ⟨i, hi, h1⟩ := h1
      exact ⟨i, .inl hi, h1⟩
  · rintro ⟨i, h | ⟨ns, h⟩, hi⟩ ⟨h1, h2⟩
    · exact hi (h1 i h)
    · exact hi (h2 _ h)

theorem exact_printReadonly {xs : List Str} {s : Sh} : (xs ≠ [] ∧ (printReadonly xs s).1 = .panic .stackOverflow) ∨
    (xs = [] ∧ printReadonly xs s = (.ok (), s)) := by
  cases xs with
  | nil => exact .inr ⟨rfl, rfl⟩
  | cons x xs =>
    refine .inl ⟨by simp, ?_⟩
    rw [BFrame.printReadonly_cons]
    rfl

theorem exact_printTwo {q : Prop} {xs ys : List Str} {s : Sh} :
    Exact q (xs ≠ [] ∨ ys ≠ []) (do printReadonly xs; printReadonly ys) s := by
  rcases exact_printReadonly (xs := xs) (s := s) with ⟨h1, h2⟩ | ⟨h1, h2⟩
  · refine .of_crash (.inl h1) (k := .stackOverflow) ?_
    rw [run_bind]
    generalize printReadonly xs s = r at h2
    obtain ⟨o, s'⟩ := r
    cases h2
    rfl
  · refine .congr (m' := printReadonly ys) (run_bind_ok h2 _) ?_
    rcases exact_printReadonly (xs := ys) (s := s) with ⟨h3, h4⟩ | ⟨h3, h4⟩
    · exact .of_crash (.inr h3) h4
    · refine .of_fine (by simp [h1, h3]) (.inl ?_)
      rw [h4]

theorem allReadonlyVarsOf_iff {s : Sh} {a : Str} :
    s.ctx.allReadonlyVarsOf a ≠ [] ↔ SomeReadonly s (fun i => s.ctx.exported.lookup a = some i) := by
  unfold CtxMgr.allReadonlyVarsOf CtxMgr.byName AMap.get SomeReadonly
  cases h : s.ctx.exported.lookup a with
  | none => simp
  | some i =>
    simp only [roNames_iff, Option.some.injEq]
    exact ⟨fun h => ⟨i, rfl, h⟩, fun ⟨i', e, h⟩ => e ▸ h⟩

theorem fine_printNames {q : Prop} (xs : List Str) (s : Sh) : Fine q (printNames xs) s := by
  induction xs generalizing s with
  | nil => exact .inl rfl
  | cons x xs ih =>
    unfold printNames Fine printlnM
    exact ih _

theorem addSetReadonly_none {c : Ctx} {t : Str} : c.addSetReadonly t = none ↔ ¬ Storable t := by
  rw [← keyOk_iff]
  unfold Ctx.addSetReadonly
  simp only
  split <;> simp_all

theorem splitNs_qualified {x ns v : Str} (h : Qualified x ns v) : splitNs x = some (ns, v) := by
  obtain ⟨h1, ⟨h2, rfl⟩ | ⟨h2, t, rfl⟩⟩ := h
  · exact splitNs_append h1 h2
  · unfold splitNs
    rw [if_pos ((hasSub_iff ..).2 ⟨ns, v ++ ':' :: ':' :: t, by simp⟩)]
    rw [show ns ++ ':' :: ':' :: v ++ ':' :: ':' :: t = ns ++ ':' :: ':' :: (v ++ ':' :: ':' :: t) by simp,
      splitColons_append _ h1, splitColons_append _ h2]

/-- Cut at the first `::`. -/
theorem first_colons (x : Str) : Unqualified x ∨ ∃ a b, x = a ++ ':' :: ':' :: b ∧ Unqualified (a ++ [':']) := by
  induction x with
  | nil => exact .inl fun a b e => by cases a <;> cases e
  | cons c x ih =>
    by_cases hc : c = ':' ∧ ∃ y, x = ':' :: y
    · obtain ⟨rfl, y, rfl⟩ := hc
      refine .inr ⟨[], y, rfl, fun a b e => ?_⟩
      have := congrArg List.length e
      simp only [List.nil_append, List.length_cons, List.length_nil, List.length_append] at this
      omega
    · have hfirst : ∀ b, c :: x ≠ ':' :: ':' :: b := fun b e => by
        cases e
        exact hc ⟨rfl, b, rfl⟩
      rcases ih with h | ⟨a, b, rfl, h⟩
      · refine .inl fun a b e => ?_
        cases a with
        | nil => exact hfirst b e
        | cons d a => cases e; exact h a b rfl
      · refine .inr ⟨c :: a, b, rfl, fun a' b' e => ?_⟩
        cases a' with
        | nil =>
          cases a with
          | nil =>
            cases e
            exact hfirst _ rfl
          | cons d a =>
            cases e
            exact hfirst _ rfl
        | cons d a' =>
          simp only [List.cons_append, List.cons.injEq] at e
          exact h a' b' e.2

/-- Every name is qualified or not. -/
theorem qualified_or (x : Str) : Unqualified x ∨ ∃ ns v, Qualified x ns v := by
  rcases first_colons x with h | ⟨a, b, rfl, h⟩
  · exact .inl h
  · rcases first_colons b with h2 | ⟨v, t, rfl, h2⟩
    · exact .inr ⟨a, b, h, .inl ⟨h2, rfl⟩⟩
    · exact .inr ⟨a, v, h, .inr ⟨h2, t, by simp⟩⟩

theorem Spec.Qualified.not {x ns v : Str} (h : Qualified x ns v) : ¬ Unqualified x := by
  intro hu
  have := splitNs_qualified h
  rw [splitNs_unqualified hu] at this
  cases this

theorem Spec.Qualified.same {x ns v ns' v' : Str} (h : Qualified x ns v) (h' : Qualified x ns' v') : ns' = ns ∧ v' = v := by
  have := splitNs_qualified h
  rw [splitNs_qualified h'] at this
  cases this
  exact ⟨rfl, rfl⟩

/-- A word `NAME=VALUE` that crashes `readonly`. -/
def BadRoSet (m : CtxMgr) (a : Str) : Prop :=
  (Unqualified a ∧ ¬ Storable a) ∨ ∃ ns v i, Qualified a ns v ∧ m.exported.lookup ns = some i ∧ ¬ Storable v

/-- A name that crashes `readonly`. -/
def BadRoMark (m : CtxMgr) (a : Str) : Prop :=
  m.getVar a = none ∧ ∀ ns v, Qualified a ns v → ∃ i, m.exported.lookup ns = some i

theorem addVarReadonly_none {m : CtxMgr} {a : Str} (hst : m.stack ≠ []) :
    m.addVarReadonly a = none ↔ BadRoSet m a := by
  rcases qualified_or a with hq | ⟨ns, v, hq⟩
  · obtain ⟨i, l, hl⟩ : ∃ i l, m.stack = i :: l := by
      cases h : m.stack with
      | nil => exact absurd h hst
      | cons i l => exact ⟨i, l, rfl⟩
    have hc : m.current = some i := by simp [CtxMgr.current, hl]
    have hb : BadRoSet m a ↔ ¬ Storable a := by
      constructor
      · rintro (h | ⟨ns, v, i, h, -⟩)
        · exact h.2
        · exact absurd hq h.not
      · exact fun h => .inl ⟨hq, h⟩
    rw [hb]
    unfold CtxMgr.addVarReadonly
    rw [splitNs_unqualified hq]
    simp only
    split
    · rw [Option.map_eq_none_iff, addSetReadonly_none]
    · rw [hc, Option.bind_some, Option.map_eq_none_iff, addSetReadonly_none]
  · unfold CtxMgr.addVarReadonly
    rw [splitNs_qualified hq]
    dsimp only [CtxMgr.byName, AMap.get]
    cases hl : m.exported.lookup ns with
    | none =>
      simp only [reduceCtorEq, false_iff]
      rintro (h | ⟨ns', v', i, h, h', -⟩)
      · exact hq.not h.1
      · obtain ⟨rfl, rfl⟩ := hq.same h
        rw [hl] at h'
        cases h'
    | some i =>
      simp only [Option.map_eq_none_iff, addSetReadonly_none]
      constructor
      · exact fun h => .inr ⟨ns, v, i, hq, hl, h⟩
      · rintro (h | ⟨ns', v', i, h, -, h'⟩)
        · exact absurd h.1 hq.not
        · obtain ⟨rfl, rfl⟩ := hq.same h
          exact h'

theorem setVarReadonly_none {m : CtxMgr} {a : Str} (hst : m.stack ≠ []) :
    m.setVarReadonly a = none ↔ BadRoMark m a := by
  rcases qualified_or a with hq | ⟨ns, v, hq⟩
  · obtain ⟨i, l, hl⟩ : ∃ i l, m.stack = i :: l := by
      cases h : m.stack with
      | nil => exact absurd h hst
      | cons i l => exact ⟨i, l, rfl⟩
    have hc : m.current = some i := by simp [CtxMgr.current, hl]
    have hv : m.getVar a = m.stack.findSome? (varIn m a) := by
      unfold CtxMgr.getVar
      rw [splitNs_unqualified hq]
      rfl
    have hb : BadRoMark m a ↔ m.getVar a = none :=
      ⟨fun h => h.1, fun h => ⟨h, fun ns v h' => absurd hq h'.not⟩⟩
    rw [hb]
    unfold CtxMgr.setVarReadonly
    rw [splitNs_unqualified hq, hv, CtxMgr.findCtx_var]
    simp only
    cases hf : m.findCtx (fun c => (c.getVar a).isSome) with
    | some id =>
      simp only [CtxMgr.markReadonly, Option.map_eq_none_iff, Option.bind_some]
      exact Iff.rfl
    | none =>
      simp only [hc, CtxMgr.markReadonly, Option.map_eq_none_iff, Option.bind_some, Option.bind_none, iff_true]
      have := CtxMgr.findCtx_none hf i (by simp [hl])
      simpa using this
  · unfold CtxMgr.setVarReadonly BadRoMark CtxMgr.getVar
    rw [splitNs_qualified hq]
    dsimp only [CtxMgr.byName, AMap.get]
    cases hl : m.exported.lookup ns with
    | none =>
      simp only [reduceCtorEq, false_iff]
      rintro ⟨-, h⟩
      obtain ⟨i, h⟩ := h ns v hq
      rw [hl] at h
      cases h
    | some i =>
      simp only [CtxMgr.markReadonly, Option.map_eq_none_iff, Option.bind_some]
      constructor
      · refine fun h => ⟨h, fun ns' v' h' => ?_⟩
        obtain ⟨rfl, rfl⟩ := hq.same h'
        exact ⟨i, hl⟩
      · exact fun h => h.1

theorem exact_readonly {q : Prop} (w : World) (s : Sh) (hg : Good s.ctx) {c : SimpleCommand} {vs : List Str} (hw : c.words = vs) :
    Exact q (Crashes w s (cs!"readonly") vs) (bReadonly c) { s with masked := true } := by
  have hcr : Crashes w s (cs!"readonly") vs ↔ (∃ x k l, vs = [x] ∧ RoFirst x k l) ∨
      (∃ rest, RoOpts vs .variable true rest ∧ SomeReadonly s (InUse s)) ∨
      (∃ a rest, RoOpts vs .context true (a :: rest) ∧ SomeReadonly s (fun i => s.ctx.exported.lookup a = some i ∨ InUse s i)) ∨
      (∃ k a rest, RoOpts vs k false (a :: rest) ∧ k ≠ .function ∧ '=' ∈ a ∧ BadRoSet s.ctx a) ∨
      (∃ k a rest, RoOpts vs k false (a :: rest) ∧ k ≠ .function ∧ '=' ∉ a ∧ BadRoMark s.ctx a) := by
    constructor
    · intro h
      crashCases h
      · exact .inl ⟨_, _, _, rfl, by assumption⟩
      · exact .inr (.inl ⟨_, by assumption, by assumption⟩)
      · exact .inr (.inr (.inl ⟨_, _, by assumption, by assumption⟩))
      · exact .inr (.inr (.inr (.inl ⟨_, _, _, by assumption, by assumption, by assumption, .inl ⟨by assumption, by assumption⟩⟩)))
      · exact .inr (.inr (.inr (.inl ⟨_, _, _, by assumption, by assumption, by assumption,
          .inr ⟨_, _, _, by assumption, by assumption, by assumption⟩⟩)))
      · exact .inr (.inr (.inr (.inr ⟨_, _, _, by assumption, by assumption, by assumption, by assumption, by assumption⟩)))
    · rintro (⟨x, k, l, rfl, h⟩ | ⟨rest, h1, h2⟩ | ⟨a, rest, h1, h2⟩ | ⟨k, a, rest, h1, h2, h3, ⟨h4, h5⟩ | ⟨ns, v, i, h4, h5, h6⟩⟩ |
        ⟨k, a, rest, h1, h2, h3, h4, h5⟩)
      · exact .readonlyShort h
      · exact .readonlyList h1 h2
      · exact .readonlyContext h1 h2
      · exact .readonlySet h1 h2 h3 h4 h5
      · exact .readonlySetIn h1 h2 h3 h4 h5 h6
      · exact .readonlyMark h1 h2 h3 h4 h5
  refine .of_iff hcr ?_
  rcases bReadonly_opts { s with masked := true } hw with ⟨k, l, rest, h1, h2, h3, h4⟩ | ⟨h1, h2, p, h3⟩ | ⟨h1, h2, e, h3⟩
  · refine .congr (m' := roRest { s with masked := true } k l rest) h4 ?_
    have hno : ∀ x k l, ¬ (vs = [x] ∧ RoFirst x k l) := fun x k l h => h3 x k l h.1 h.2
    simp only [h2, hno, exists_const, exists_false, false_or]
    cases l
    · by_cases hk : k = .function
      · subst hk
        refine .of_fine ?_ (fine_printNames _ _)
        rintro (h | h | ⟨k, a, r, h1, h2, -⟩ | ⟨k, a, r, h1, h2, -⟩)
        · simp at h
        · simp at h
        · exact h2 h1.1
        · exact h2 h1.1
      · cases rest with
        | nil =>
          refine .of_fine (by simp) ?_
          unfold roRest
          cases k
          · exact .inr (.inl ⟨_, rfl⟩)
          · exact absurd rfl hk
          · exact .inr (.inl ⟨_, rfl⟩)
        | cons a rest =>
          have e : roRest { s with masked := true } k false (a :: rest) = (if hasChar '=' a then do
              let m ← unwrapM .unwrap (s.ctx.addVarReadonly a)
              setCtxMgr m
            else do
              let m ← unwrapM .unwrap (s.ctx.setVarReadonly a)
              setCtxMgr m) := by
            unfold roRest
            cases k
            · rfl
            · exact absurd rfl hk
            · rfl
          rw [e]
          by_cases heq : '=' ∈ a
          · rw [if_pos ((hasChar_iff ..).2 heq)]
            refine exact_unwrap ?_ fun _ _ => .inl rfl
            rw [addVarReadonly_none hg.nonempty]
            constructor
            · rintro (h | h | ⟨k, a, r, ⟨-, -, e⟩, -, -, h⟩ | ⟨k, a, r, ⟨-, -, e⟩, -, h, -⟩)
              · simp at h
              · simp at h
              · cases e
                exact h
              · cases e
                exact absurd heq h
            · exact fun h => .inr (.inr (.inl ⟨k, a, rest, ⟨rfl, rfl, rfl⟩, hk, heq, h⟩))
          · rw [if_neg (by rw [hasChar_iff]; exact heq)]
            refine exact_unwrap ?_ fun _ _ => .inl rfl
            rw [setVarReadonly_none hg.nonempty]
            constructor
            · rintro (h | h | ⟨k, a, r, ⟨-, -, e⟩, -, h, -⟩ | ⟨k, a, r, ⟨-, -, e⟩, -, -, h⟩)
              · simp at h
              · simp at h
              · cases e
                exact absurd h heq
              · cases e
                exact h
            · exact fun h => .inr (.inr (.inr ⟨k, a, rest, ⟨rfl, rfl, rfl⟩, hk, heq, h⟩))
    · cases k
      · refine .of_iff (q := s.ctx.allReadonlyVars ≠ [] ∨ s.ctx.allReadonlyVars ≠ []) ?_ exact_printTwo
        rw [or_self, allReadonlyVars_iff]
        constructor
        · rintro (⟨r, -, h⟩ | ⟨a, r, h, -⟩ | ⟨k, a, r, h, -⟩ | ⟨k, a, r, h, -⟩)
          · exact h
          · simp at h
          · simp at h
          · simp at h
        · exact fun h => .inl ⟨rest, ⟨rfl, rfl, rfl⟩, h⟩
      · exact .of_fine (by simp) (fine_printNames _ _)
      · cases rest with
        | nil => exact .of_fine (by simp) (.inr (.inl ⟨_, rfl⟩))
        | cons a rest =>
          refine .of_iff (q := s.ctx.allReadonlyVarsOf a ≠ [] ∨ s.ctx.allReadonlyVars ≠ []) ?_ exact_printTwo
          rw [allReadonlyVars_iff, allReadonlyVarsOf_iff]
          constructor
          · rintro (⟨r, h, -⟩ | ⟨a, r, ⟨-, -, e⟩, i, h | h, hi⟩ | ⟨k, a, r, h, -⟩ | ⟨k, a, r, h, -⟩)
            · simp at h
            · cases e
              exact .inl ⟨i, h, hi⟩
            · exact .inr ⟨i, h, hi⟩
            · simp at h
            · simp at h
          · rintro (⟨i, h, hi⟩ | ⟨i, h, hi⟩)
            · exact .inr (.inl ⟨a, rest, ⟨rfl, rfl, rfl⟩, i, .inl h, hi⟩)
            · exact .inr (.inl ⟨a, rest, ⟨rfl, rfl, rfl⟩, i, .inr h, hi⟩)
  · exact .of_crash (.inl h1) h3
  · refine .of_fine ?_ (.inr (.inl ⟨e, h3⟩))
    rintro (⟨x, k, l, e, h⟩ | ⟨rest, h, -⟩ | ⟨a, rest, h, -⟩ | ⟨k, a, rest, h, -⟩ | ⟨k, a, rest, h, -⟩)
    · exact h1 x k l e h
    all_goals exact h2 _ _ _ h

theorem exact_exec (w : World) (s : Sh) {c : SimpleCommand} {vs : List Str} (hw : c.words = vs) :
    Exact True (Crashes w s (cs!"exec") vs) (bExec w c) { s with masked := true } := by
  have hcr : Crashes w s (cs!"exec") vs ↔ ExecCrashes w s vs := by
    constructor
    · intro h
      crashCases h
      assumption
    · exact .exec
  refine .of_iff hcr ?_
  have h := bExec_reads w { s with masked := true } c
  rw [hw] at h
  cases hr : execReads vs with
  | short =>
    rw [hr] at h
    exact .of_crash (.short hr) (congrArg Prod.fst h)
  | refused =>
    rw [hr] at h
    refine .of_fine ?_ (.inr (.inl ⟨_, congrArg Prod.fst h⟩))
    intro hc
    cases hc <;> simp_all
  | run a0 cmd args e =>
    rw [hr] at h
    dsimp only at h
    have hsame : ∀ {a0' cmd' args' e'}, execReads vs = .run a0' cmd' args' e' → a0' = a0 ∧ cmd' = cmd ∧ args' = args := by
      intro a0' cmd' args' e' h'
      rw [hr] at h'
      cases h'
      exact ⟨rfl, rfl, rfl⟩
    by_cases hz : (a0 :: args).any (hasChar '\x00') = true
    · rw [if_pos hz] at h
      rw [List.any_eq_true] at hz
      obtain ⟨a, ha, hz⟩ := hz
      exact .of_crash (.nul hr ha (hasChar_iff.1 hz)) (congrArg Prod.fst h)
    · rw [if_neg hz] at h
      have hz' : ∀ a ∈ a0 :: args, '\x00' ∉ a := fun a ha hb => hz (List.any_eq_true.2 ⟨a, ha, hasChar_iff.2 hb⟩)
      unfold tempExecve at h
      rw [run_bind_ok (show removeHandlers { s with masked := true } = (.ok (), (removeHandlers { s with masked := true }).2) from rfl)] at h
      cases hpath : pathOf s with
      | none =>
        have : lookupCommandM w cmd (removeHandlers { s with masked := true }).2 =
            (.panic .unwrap, (removeHandlers { s with masked := true }).2) := by
          unfold lookupCommandM
          rw [run_getS_bind, lookupCommand_path, show pathOf (removeHandlers { s with masked := true }).2 = none from hpath]
          rfl
        rw [run_bind, this] at h
        exact .of_crash (.path hr hpath) (congrArg Prod.fst h)
      | some path =>
        rw [run_bind_ok (lookupCommandM_run w _ (removeHandlers { s with masked := true }).2 (path := path) hpath)] at h
        rw [show (removeHandlers { s with masked := true }).2.trace = s.trace from rfl] at h
        have hno : (∀ file, FirstOnPath (w.isFile s.trace) path cmd file → '\x00' ∉ file) → ¬ ExecCrashes w s vs := by
          intro hf hc
          cases hc with
          | short h => rw [hr] at h; cases h
          | nul h1 h2 h3 =>
            obtain ⟨rfl, rfl, rfl⟩ := hsame h1
            exact hz' _ h2 h3
          | path h1 h2 => rw [hpath] at h2; cases h2
          | file h1 h2 h3 h4 =>
            obtain ⟨rfl, rfl, rfl⟩ := hsame h1
            rw [hpath] at h2
            cases h2
            exact hf _ h3 h4
        cases hs : CtxMgr.searchPath (w.isFile s.trace) cmd (splitOn ':' path) with
        | none =>
          rw [hs] at h
          refine .of_fine (hno fun file hf => ?_) (.inr (.inl ⟨_, congrArg Prod.fst h⟩))
          rw [(searchPath_first _ _ _ _).2 hf] at hs
          cases hs
        | some file =>
          rw [hs] at h
          have hf := (searchPath_first _ _ _ _).1 hs
          dsimp only at h
          by_cases hnf : hasChar '\x00' file = true
          · rw [if_pos hnf] at h
            exact .of_crash (.file hr hpath hf (hasChar_iff.1 hnf)) (congrArg Prod.fst h)
          · rw [if_neg hnf, run_getS_bind] at h
            have hne : ¬ ExecCrashes w s vs := by
              refine hno fun file' hf' hb => ?_
              have := (searchPath_first _ _ _ _).2 hf'
              rw [hs] at this
              cases this
              exact hnf (hasChar_iff.2 hb)
            by_cases hx : w.execOk (removeHandlers { s with masked := true }).2.trace file = true
            · rw [if_pos hx] at h
              exact .of_fine hne (.inr (.inr (.inr ⟨trivial, _, congrArg Prod.fst h⟩)))
            · rw [if_neg hx] at h
              exact .of_fine hne (.inr (.inl ⟨_, congrArg Prod.fst h⟩))

/-! ## C78 -/

theorem exact_call (w : World) (n : Nat) (s : Sh) (hp : AtPrompt w s) (c : Call) (h : Decided w s c.name c.values) :
    Exact (c.name = cs!"exit" ∨ c.name = cs!"exec") (Crashes w s c.name c.values) (callBuiltin w (evalFuel w n) (Call.simple c)) { s with masked := true } := by
  have hs : (Call.simple c).suffix = some ⟨[], c.values⟩ := rfl
  have hw : (Call.simple c).words = c.values := rfl
  have hn : (Call.simple c).name = c.name := rfl
  generalize Call.simple c = d at *
  generalize c.values = vs at *
  generalize c.name = nm at *
  have hh := (AtPrompt_own hp).2.1
  have hg := AtPrompt_good hp
  rcases h with h | ⟨h, h1⟩ | ⟨h, h1⟩
  · simp only [List.mem_cons, List.not_mem_nil, or_false] at h
    rcases h with h | h | h | h | h | h | h | h | h | h | h <;> cases h
    · rw [callBuiltin_cd _ _ hn]; exact exact_cd w s hs
    · rw [callBuiltin_exit _ _ hn]; exact (exact_exit w s hw).mono (by simp)
    · rw [callBuiltin_return _ _ hn]; exact exact_return w s hw
    · rw [callBuiltin_jobs _ _ hn]; exact exact_jobs w s
    · rw [callBuiltin_alias _ _ hn]; exact exact_alias w s hs
    · rw [callBuiltin_unalias _ _ hn]; exact exact_unalias w s hs
    · rw [callBuiltin_unset _ _ hn]; exact exact_unset w s hw
    · rw [callBuiltin_pwd _ _ hn]
      exact .of_fine (fun h => by crashCases h) (.inl rfl)
    · rw [callBuiltin_bg _ _ hn]; exact exact_bg w s hh hn hs
    · rw [callBuiltin_readonly _ _ hn]; exact exact_readonly w s hg hw
    · rw [callBuiltin_exec _ _ hn]; exact (exact_exec w s hw).mono (by simp)
  · cases h
    rw [callBuiltin_fg _ _ hn]; exact exact_fg w s hh hn hs h1
  · cases h
    rw [callBuiltin_export _ _ hn]; exact exact_export w _ s hg hw h1

theorem report_panic {m : M Unit} {s : Sh} {k : PanicKind} (h : (m s).1 = .panic k) : (reportM m s).1 = .panic k := by
  unfold reportM
  rw [run_bind, run_tryE]
  generalize m s = r at h
  obtain ⟨o, s1⟩ := r
  cases h
  rfl

/-- C78, exactly: a builtin typed at the prompt crashes the shell with the arguments of `Crashes`, and with no
others: then it works or its error is reported, and the shell goes on, unless it is `exit` or `exec`.  (What is missing here: `eval` and `source`, see `C78_eval` and `C78_source`,
and the calls of `fg` and `export` that `Decided` leaves out, see `C78_fg` and `C78_export`.) -/
theorem C78_exact_partial (w : World) (n : Nat) (s : Sh) (hp : AtPrompt w s) (c : Call) (hc : c.Ok s)
    (h : Decided w s c.name c.values) :
    (Crashes w s c.name c.values → ∃ k, (interactiveLine w (n + 1) c.text s).1 = .panic k) ∧
    (¬ Crashes w s c.name c.values → Survives (interactiveLine w (n + 1) c.text s).1 ∧
      (c.name ≠ cs!"exit" → c.name ≠ cs!"exec" → (interactiveLine w (n + 1) c.text s).1 = .ok ())) := by
  rw [Call.line w n hc]
  have := exact_call w n s hp c h
  exact ⟨fun h => (this.1 h).elim fun k h => ⟨k, report_panic h⟩, fun h =>
    ⟨(survives_report (this.2 h)).1, fun h1 h2 => (survives_report (this.2 h)).2 (by simp [h1, h2])⟩⟩

example : Decided (demoWorld []) (demoShell []) (cs!"unset") [cs!"-v"] ∧ Crashes (demoWorld []) (demoShell []) (cs!"unset") [cs!"-v"] ∧
    Decided (demoWorld []) (demoShell []) (cs!"readonly") [cs!"X"] ∧ Crashes (demoWorld []) (demoShell []) (cs!"readonly") [cs!"X"] ∧
    Decided (demoWorld []) (demoShell []) (cs!"exit") [cs!"+3"] ∧ ¬ Crashes (demoWorld []) (demoShell []) (cs!"exit") [cs!"+3"] := by
  refine ⟨.inl (by decide), .unset (by decide) (by decide), .inl (by decide), ?_, .inl (by decide), ?_⟩
  · refine .readonlyMark (.none (by decide)) (by decide) (by decide) (by decide +kernel) fun ns v h => absurd ?_ h.not
    exact fun a b e => absurd (congrArg List.length e) (by simp; omega)
  · rw [crashes_exit]
    rintro ⟨v, vs, e, h⟩
    cases e
    exact h (.inl ⟨3, .plus (ds := ['3']) ⟨by decide, by decide⟩ (by decide)⟩)

end Rsh
