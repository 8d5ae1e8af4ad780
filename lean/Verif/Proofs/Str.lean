import Verif.Spec.Context
import Verif.Model.Builtins

/-!
# Lemmas about strings, splitting and maps
-/

namespace Rsh

open Spec

theorem splitOn_ne_nil (p : Char) (s : Str) : splitOn p s ≠ [] := by
  cases s with
  | nil => simp [splitOn]
  | cons c cs =>
    unfold splitOn
    split
    · simp
    · split <;> simp

theorem splitOn_append (p : Char) (n v : Str) (h : p ∉ n) :
    splitOn p (n ++ p :: v) = n :: splitOn p v := by
  induction n with
  | nil => simp [splitOn]
  | cons c n ih =>
    simp only [List.mem_cons, not_or] at h
    rw [List.cons_append, splitOn, if_neg (Ne.symm h.1), ih h.2]

theorem splitOn_none (p : Char) (v : Str) (h : p ∉ v) : splitOn p v = [v] := by
  induction v with
  | nil => rfl
  | cons c n ih =>
    simp only [List.mem_cons, not_or] at h
    rw [splitOn, if_neg (Ne.symm h.1), ih h.2]

theorem splitOn_head (p : Char) (s : Str) :
    ∃ l, splitOn p s = s.takeWhile (fun c => decide (c ≠ p)) :: l := by
  induction s with
  | nil => exact ⟨[], rfl⟩
  | cons c s ih =>
    obtain ⟨l, hl⟩ := ih
    unfold splitOn
    by_cases h : c = p
    · exact ⟨splitOn p s, by simp [h]⟩
    · exact ⟨l, by simp [h, hl]⟩

theorem hasChar_iff {c : Char} {s : Str} : hasChar c s = true ↔ c ∈ s := by
  simp [hasChar]

theorem hasChar_false {c : Char} {s : Str} : hasChar c s = false ↔ c ∉ s := by
  rw [← Bool.not_eq_true, hasChar_iff]

theorem splitSet_eq (n v : Str) (h : '=' ∉ n) :
    splitSet (n ++ '=' :: v) = (n, v.takeWhile (fun c => decide (c ≠ '='))) := by
  unfold splitSet
  rw [if_pos (by simp [hasChar]), splitOn_append _ _ _ h]
  obtain ⟨l, hl⟩ := splitOn_head '=' v
  rw [hl]

theorem takeWhile_none {p : Char} {v : Str} (h : p ∉ v) :
    v.takeWhile (fun c => decide (c ≠ p)) = v := by
  induction v with
  | nil => rfl
  | cons c v ih =>
    simp only [List.mem_cons, not_or] at h
    rw [List.takeWhile_cons_of_pos (by simpa using Ne.symm h.1), ih h.2]

theorem setName_eq (n v : Str) (h : '=' ∉ n) : CtxMgr.setName (n ++ '=' :: v) = n := by
  simp [CtxMgr.setName, splitOn_append _ _ _ h]

theorem setName_plain (n : Str) (h : '=' ∉ n) : CtxMgr.setName n = n := by
  simp [CtxMgr.setName, splitOn_none _ _ h]

theorem splitSet_fst (set : Str) : (splitSet set).1 = CtxMgr.setName set := by
  by_cases hc : '=' ∈ set
  · obtain ⟨a, b, rfl, ha⟩ : ∃ a b, set = a ++ '=' :: b ∧ '=' ∉ a := by
      obtain ⟨a, b, e⟩ := List.eq_append_cons_of_mem hc
      exact ⟨a, b, e.1, e.2⟩
    rw [splitSet_eq _ _ ha, setName_eq _ _ ha]
  · rw [setName_plain _ hc, splitSet, if_neg (by rw [hasChar_iff]; exact hc)]

theorem hasSub_iff (p s : Str) : hasSub p s = true ↔ ∃ a b, s = a ++ p ++ b := by
  induction s with
  | nil =>
    unfold hasSub
    cases p with
    | nil => simp
    | cons c p => simp
  | cons c s ih =>
    unfold hasSub
    rw [Bool.or_eq_true, ih, List.isPrefixOf_iff_prefix]
    constructor
    · rintro (⟨t, ht⟩ | ⟨a, b, rfl⟩)
      · exact ⟨[], t, by simp [ht]⟩
      · exact ⟨c :: a, b, by simp⟩
    · rintro ⟨a, b, h⟩
      cases a with
      | nil => left; exact ⟨b, by simpa using h.symm⟩
      | cons d a =>
        right
        simp only [List.cons_append, List.cons.injEq] at h
        exact ⟨a, b, h.2⟩

theorem hasSub_false (p s : Str) : hasSub p s = false ↔ ∀ a b, s ≠ a ++ p ++ b := by
  rw [← Bool.not_eq_true, hasSub_iff]
  constructor
  · intro h a b e; exact h ⟨a, b, e⟩
  · rintro h ⟨a, b, e⟩; exact h a b e

theorem hasSub_single (c : Char) (s : Str) : hasSub [c] s = true ↔ c ∈ s := by
  rw [hasSub_iff]
  constructor
  · rintro ⟨a, b, rfl⟩; simp
  · intro h
    obtain ⟨a, b, e⟩ := List.append_of_mem h
    exact ⟨a, b, by simp [e]⟩

theorem splitNs_unqualified {x : Str} (h : Unqualified x) : splitNs x = none := by
  unfold splitNs
  rw [if_neg]
  rw [hasSub_iff]
  rintro ⟨a, b, e⟩
  exact h a b (by simpa using e)

theorem splitColons_none {x : Str} (h : Unqualified x) : splitColons x = [x] := by
  induction x with
  | nil => rfl
  | cons c x ih =>
    cases x with
    | nil => rfl
    | cons d x =>
      have h1 : ¬ (c = ':' ∧ d = ':') := by
        rintro ⟨rfl, rfl⟩; exact h [] x rfl
      have h2 : Unqualified (d :: x) := by
        intro a b e; exact h (c :: a) b (by rw [e]; rfl)
      rw [splitColons, if_neg h1, ih h2]

/-- `ns::x`: the part before the first `::`. -/
theorem splitColons_append {ns : Str} (x : Str) (h : Unqualified (ns ++ [':'])) :
    splitColons (ns ++ ':' :: ':' :: x) = ns :: splitColons x := by
  induction ns with
  | nil => simp [splitColons]
  | cons c ns ih =>
    have h2 : Unqualified (ns ++ [':']) := by
      intro a b e; exact h (c :: a) b (by rw [List.cons_append, e]; rfl)
    have ih := ih h2
    cases ns with
    | nil =>
      have h1 : c ≠ ':' := by rintro rfl; exact h [] [] rfl
      simp only [List.nil_append] at ih
      show splitColons (c :: ':' :: ':' :: x) = _
      rw [splitColons, if_neg (by rintro ⟨rfl, _⟩; exact h1 rfl), ih]
    | cons d ns =>
      have h1 : ¬ (c = ':' ∧ d = ':') := by
        rintro ⟨rfl, rfl⟩; exact h [] (ns ++ [':']) rfl
      show splitColons (c :: d :: (ns ++ ':' :: ':' :: x)) = _
      rw [splitColons, if_neg h1]
      simp only [List.cons_append] at ih
      rw [ih]

theorem splitNs_append {ns x : Str} (h : Unqualified (ns ++ [':'])) (hx : Unqualified x) :
    splitNs (ns ++ ':' :: ':' :: x) = some (ns, x) := by
  unfold splitNs
  rw [if_pos, splitColons_append x h, splitColons_none hx]
  rw [hasSub_iff]
  exact ⟨ns, x, by simp⟩

theorem trimQuotes_unquoted {v u : Str} (h : Unquoted v u) (hl : ¬ LoneQuote v) :
    trimQuotes v = u := by
  rcases h with ⟨q, hq, rfl⟩ | ⟨h, rfl⟩
  · simp only [quotes, List.mem_cons, List.not_mem_nil, or_false] at hq
    unfold trimQuotes startsWith endsWith
    rcases hq with rfl | rfl <;> simp [List.isPrefixOf, List.isSuffixOf]
  · unfold trimQuotes
    rw [if_neg]
    intro hc
    have key : ∀ q ∈ quotes, startsWith [q] u = true → endsWith [q] u = true → False := by
      intro q hq h1 h2
      unfold startsWith at h1
      unfold endsWith at h2
      rw [List.isPrefixOf_iff_prefix] at h1
      rw [List.isSuffixOf_iff_suffix] at h2
      obtain ⟨a, ha⟩ := h1
      obtain ⟨b, hb⟩ := h2
      cases b with
      | nil => exact hl ⟨q, hq, by simpa using hb.symm⟩
      | cons c b =>
        have : c = q := by rw [← ha] at hb; simp at hb; exact hb.1
        subst this
        exact h c hq b (by rw [← hb]; rfl)
    simp only [Bool.or_eq_true, Bool.and_eq_true] at hc
    rcases hc with ⟨a, b⟩ | ⟨a, b⟩
    · exact key '"' (by simp [quotes]) a b
    · exact key '\'' (by simp [quotes]) a b

theorem unquoted_exists (v : Str) : ∃ u, Unquoted v u := by
  by_cases h : ∃ q ∈ quotes, ∃ t : Str, v = q :: (t ++ [q])
  · obtain ⟨q, hq, t, e⟩ := h
    exact ⟨t, .inl ⟨q, hq, e⟩⟩
  · exact ⟨v, .inr ⟨fun q hq t e => h ⟨q, hq, t, e⟩, rfl⟩⟩

/-! ## Maps -/

theorem lookup_cons_self [BEq κ] [LawfulBEq κ] (k : κ) (v : α) (m : List (κ × α)) :
    List.lookup k ((k, v) :: m) = some v := by simp [List.lookup]

theorem lookup_cons_ne [BEq κ] [LawfulBEq κ] {k k' : κ} (h : k ≠ k') (v : α) (m : List (κ × α)) :
    List.lookup k ((k', v) :: m) = List.lookup k m := by
  simp [List.lookup, beq_false_of_ne h]

theorem lookup_filter_ne [BEq κ] [LawfulBEq κ] [DecidableEq κ] {k k' : κ} (h : k ≠ k')
    (m : List (κ × α)) : (m.filter (fun p => decide (p.1 ≠ k'))).lookup k = m.lookup k := by
  induction m with
  | nil => rfl
  | cons p m ih =>
    obtain ⟨a, v⟩ := p
    by_cases ha : a = k'
    · subst ha
      simp only [ne_eq, not_true, decide_false, Bool.false_eq_true, not_false_eq_true,
        List.filter_cons_of_neg]
      rw [ih, lookup_cons_ne h]
    · rw [List.filter_cons_of_pos (by simpa using ha)]
      by_cases hk : k = a
      · subst hk; rw [lookup_cons_self, lookup_cons_self]
      · rw [lookup_cons_ne hk, lookup_cons_ne hk, ih]

theorem lookup_filter_self [BEq κ] [LawfulBEq κ] [DecidableEq κ] (k : κ)
    (m : List (κ × α)) : (m.filter (fun p => decide (p.1 ≠ k))).lookup k = none := by
  induction m with
  | nil => rfl
  | cons p m ih =>
    obtain ⟨a, v⟩ := p
    by_cases ha : a = k
    · subst ha; simpa using ih
    · rw [List.filter_cons_of_pos (by simpa using ha), lookup_cons_ne (Ne.symm ha), ih]

namespace AMap

theorem get_insert_self (m : AMap α) (k : Str) (v : α) : (m.insert k v).get k = some v :=
  lookup_cons_self ..

theorem get_erase_ne (m : AMap α) {k k' : Str} (h : k ≠ k') : (m.erase k').get k = m.get k :=
  lookup_filter_ne h m

theorem get_erase_self (m : AMap α) (k : Str) : (m.erase k).get k = none := lookup_filter_self k m

theorem get_insert_ne (m : AMap α) {k k' : Str} (v : α) (h : k ≠ k') :
    (m.insert k' v).get k = m.get k := by
  unfold get insert
  rw [lookup_cons_ne h]
  exact get_erase_ne m h

theorem get_insert (m : AMap α) (k k' : Str) (v : α) :
    (m.insert k' v).get k = if k = k' then some v else m.get k := by
  split
  · next h => subst h; exact get_insert_self ..
  · next h => exact get_insert_ne _ _ h

theorem get_erase (m : AMap α) (k k' : Str) :
    (m.erase k').get k = if k = k' then none else m.get k := by
  split
  · next h => subst h; exact get_erase_self ..
  · next h => exact get_erase_ne _ h

end AMap

theorem lookup_mem [BEq α] [LawfulBEq α] {l : List (α × β)} {k : α} {v : β} (h : l.lookup k = some v) :
    (k, v) ∈ l := by
  induction l with
  | nil => cases h
  | cons p l ih =>
    obtain ⟨a, b⟩ := p
    rw [List.lookup_cons] at h
    split at h
    · next e => cases h; rw [eq_of_beq e]; exact List.mem_cons_self
    · exact List.mem_cons_of_mem _ (ih h)

end Rsh
