import Verif.Proofs.Context

/-!
# Decimal numbers
-/

namespace Rsh

open Spec

theorem isDigit10_of_isDigit {c : Char} (h : c.isDigit = true) : isDigit10 c = true := by
  unfold Char.isDigit at h
  unfold isDigit10
  simp only [Bool.and_eq_true, decide_eq_true_eq, ge_iff_le, UInt32.le_iff_toNat_le] at h ⊢
  exact h

theorem natStr_digit {n : Nat} {c : Char} (h : c ∈ natStr n) : isDigit10 c = true :=
  isDigit10_of_isDigit (Nat.isDigit_of_mem_toDigits (by decide) (by decide) h)

theorem natStr_ne_nil (n : Nat) : natStr n ≠ [] := Nat.toDigits_ne_nil

theorem digitsVal_nil (acc : Nat) : digitsVal acc [] = acc := by simp [digitsVal]
theorem digitsVal_cons (acc : Nat) (c : Char) (cs : Str) :
    digitsVal acc (c :: cs) = digitsVal (acc * 10 + (c.toNat - 48)) cs := by
  simp [digitsVal]

theorem digitsVal_append (acc : Nat) (a b : Str) :
    digitsVal acc (a ++ b) = digitsVal (digitsVal acc a) b := by
  induction a generalizing acc with
  | nil => rfl
  | cons c a ih => rw [List.cons_append, digitsVal_cons, digitsVal_cons, ih]

theorem digitsVal_ge (acc : Nat) (ds : Str) : acc * 10 ^ ds.length ≤ digitsVal acc ds := by
  induction ds generalizing acc with
  | nil => simp [digitsVal_nil]
  | cons c ds ih =>
    have := ih (acc * 10 + (c.toNat - 48))
    rw [digitsVal_cons, List.length_cons, Nat.pow_succ, Nat.mul_comm _ 10, ← Nat.mul_assoc]
    exact Nat.le_trans (Nat.mul_le_mul_right _ (Nat.le_add_right _ _)) this

theorem digitsVal_lt (acc : Nat) (ds : Str) (h : ∀ c ∈ ds, isDigit10 c = true) :
    digitsVal acc ds < (acc + 1) * 10 ^ ds.length := by
  induction ds generalizing acc with
  | nil => simp [digitsVal_nil]
  | cons c ds ih =>
    have h1 := ih (acc * 10 + (c.toNat - 48)) (fun d hd => h d (List.mem_cons_of_mem _ hd))
    have h2 := h c List.mem_cons_self
    unfold isDigit10 at h2
    simp only [Bool.and_eq_true, decide_eq_true_eq] at h2
    rw [digitsVal_cons, List.length_cons, Nat.pow_succ, Nat.mul_comm (10 ^ _) 10, ← Nat.mul_assoc]
    refine Nat.lt_of_lt_of_le h1 (Nat.mul_le_mul_right _ ?_)
    omega

theorem digitsVal_natStr_core (ds : Str) (acc : Nat) (h : ∀ c ∈ ds, isDigit10 c = true) :
    digitsVal acc ds = Nat.ofDigitChars 10 ds acc := by
  induction ds generalizing acc with
  | nil => rfl
  | cons c ds ih =>
    rw [digitsVal_cons, ih _ (fun d hd => h d (List.mem_cons_of_mem _ hd))]
    simp [Nat.ofDigitChars, Nat.mul_comm]

theorem digitsVal_natStr (n : Nat) : digitsVal 0 (natStr n) = n := by
  rw [digitsVal_natStr_core _ _ (fun _ => natStr_digit)]
  exact Nat.ofDigitChars_ten_toDigits

theorem natStr_inj {a b : Nat} (h : natStr a = natStr b) : a = b := by
  rw [← digitsVal_natStr a, ← digitsVal_natStr b, h]

theorem digit_ne {c d : Char} (h : isDigit10 c = true) (hd : isDigit10 d = false) : c ≠ d := by
  rintro rfl; rw [h] at hd; cases hd

theorem natStr_not_mem {n : Nat} {d : Char} (hd : isDigit10 d = false) : d ∉ natStr n :=
  fun h => digit_ne (natStr_digit h) hd rfl

theorem natStr_unqualified (n : Nat) : Unqualified (natStr n) := by
  intro a b e
  exact natStr_not_mem (n := n) (d := ':') rfl (by rw [e]; simp)

/-- Is a set string that begins with a digit accepted? -/
theorem keyOk_digit {c : Char} {cs : Str} (hc : isDigit10 c = true) :
    keyOk (c :: cs) = decide (digitsVal 0 ((c :: cs).filter isDigit10) ≤ 18446744073709551615) := by
  unfold keyOk
  simp only [hc, if_true]
  rw [List.filter_cons_of_pos hc]
  have hplus : c ≠ '+' := digit_ne hc rfl
  unfold parseUsize parseUnsigned
  split
  · next e => simp at e; exact absurd e.1 hplus
  · unfold parseDigits
    have hall : (c :: cs.filter isDigit10).all isDigit10 = true := by
      simp [hc]
    rw [hall]
    simp only [List.isEmpty_cons, Bool.false_eq_true, if_false, if_true, Option.bind_some]
    by_cases h : digitsVal 0 (c :: cs.filter isDigit10) ≤ 18446744073709551615 <;> simp [h]

theorem keyOk_natStr (i : Nat) (v : Str) :
    keyOk (natStr i ++ v) =
      decide (digitsVal i (v.filter isDigit10) ≤ 18446744073709551615) := by
  rcases h : natStr i with _ | ⟨c, cs⟩
  · exact absurd h (natStr_ne_nil i)
  · have hc : isDigit10 c = true := natStr_digit (n := i) (by rw [h]; simp)
    rw [List.cons_append, keyOk_digit hc, ← List.cons_append, ← h, List.filter_append,
      List.filter_eq_self.2 (fun _ => natStr_digit), digitsVal_append, digitsVal_natStr]

theorem keyOk_natStr_few (i : Nat) (v : Str)
    (h : (natStr i).length + (v.filter isDigit10).length ≤ 19) : keyOk (natStr i ++ v) = true := by
  rw [keyOk_natStr, decide_eq_true_eq]
  have h1 := digitsVal_lt i (v.filter isDigit10) (fun c hc => (List.mem_filter.1 hc).2)
  have h2 := digitsVal_lt 0 (natStr i) (fun _ => natStr_digit)
  rw [digitsVal_natStr, Nat.zero_add, Nat.one_mul] at h2
  have h3 : (i + 1) * 10 ^ (v.filter isDigit10).length
      ≤ 10 ^ (natStr i).length * 10 ^ (v.filter isDigit10).length := Nat.mul_le_mul_right _ h2
  rw [← Nat.pow_add] at h3
  have h4 := Nat.pow_le_pow_right (n := 10) (by decide) h
  omega

theorem keyOk_natStr_many (i : Nat) (v : Str) (hi : 1 ≤ i)
    (h : 20 ≤ (v.filter isDigit10).length) : keyOk (natStr i ++ v) = false := by
  rw [keyOk_natStr, decide_eq_false_iff_not]
  have h1 := digitsVal_ge i (v.filter isDigit10)
  have h3 : 1 * 10 ^ (v.filter isDigit10).length ≤ i * 10 ^ (v.filter isDigit10).length :=
    Nat.mul_le_mul_right _ hi
  have h4 := Nat.pow_le_pow_right (n := 10) (by decide) h
  omega

theorem parseDigits_natStr (n : Nat) : parseDigits (natStr n) = some n := by
  unfold parseDigits
  rw [if_neg (by simpa using natStr_ne_nil n), if_pos (by simpa using fun c hc => natStr_digit hc), digitsVal_natStr]

theorem parseI32_intStr {n : Int} (h : -2147483648 ≤ n ∧ n ≤ 2147483647) : parseI32 (intStr n) = some n := by
  unfold intStr
  split
  · unfold parseI32
    simp only [parseDigits_natStr, Option.bind_some]
    rw [if_pos (by omega)]
    congr 1
    omega
  · have key : ∀ d : Str, d = natStr n.natAbs → parseI32 d = some n := by
      intro d hd
      have h1 : ∀ c ds, d = c :: ds → isDigit10 c = true := by
        intro c ds e
        exact natStr_digit (n := n.natAbs) (by rw [← hd, e]; simp)
      unfold parseI32
      split
      · exact absurd (h1 _ _ rfl) (by decide)
      · exact absurd (h1 _ _ rfl) (by decide)
      · rw [hd, parseDigits_natStr]
        simp only [Option.bind_some]
        rw [if_pos (by omega)]
        congr 1
        omega
    exact key _ rfl

theorem isDigit10_mem {c : Char} (h : isDigit10 c = true) : c ∈ (cs!"+-0123456789") := by
  unfold isDigit10 at h
  simp only [Bool.and_eq_true, decide_eq_true_eq] at h
  have h1 : 48 ≤ c.toNat := h.1
  have h2 : c.toNat ≤ 57 := h.2
  have e : c = Char.ofNat c.toNat := (Char.ofNat_toNat c).symm
  have : c.toNat = 48 ∨ c.toNat = 49 ∨ c.toNat = 50 ∨ c.toNat = 51 ∨ c.toNat = 52 ∨ c.toNat = 53 ∨ c.toNat = 54 ∨
    c.toNat = 55 ∨ c.toNat = 56 ∨ c.toNat = 57 := by omega
  rcases this with h | h | h | h | h | h | h | h | h | h <;> rw [e, h] <;> decide

theorem intStr_chars {n : Int} {c : Char} (h : c ∈ intStr n) : c = '-' ∨ isDigit10 c = true := by
  unfold intStr at h
  split at h
  · rcases List.mem_cons.1 h with h | h
    · exact .inl h
    · exact .inr (natStr_digit h)
  · exact .inr (natStr_digit h)

theorem intStr_ne (n : Int) : intStr n ≠ [] := by
  unfold intStr
  split
  · simp
  · exact natStr_ne_nil _

end Rsh
