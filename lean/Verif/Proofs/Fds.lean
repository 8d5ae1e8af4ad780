import Verif.Proofs.Frames

/-!
# Lemmas about descriptor tables
-/

namespace Rsh

namespace FdTable

theorem get_set (t : FdTable) (fd fd' : Int) (e : FdE) :
    (t.set fd e).get fd' = if fd' = fd then some e else t.get fd' := by
  unfold get set erase
  by_cases h : fd' = fd
  · subst h; simp
  · rw [if_neg h]
    have : (fd' == fd) = false := by simpa using h
    rw [List.lookup_cons, this]
    induction t with
    | nil => rfl
    | cons p t ih =>
      obtain ⟨a, b⟩ := p
      by_cases ha : a = fd
      · subst ha
        simp only [List.filter_cons, ne_eq, not_true_eq_false, decide_false, List.lookup_cons, this]
        exact ih
      · simp only [List.filter_cons, ne_eq, ha, not_false_eq_true, decide_true, if_true, List.lookup_cons]
        have ih' : List.lookup fd' (List.filter (fun p => decide (¬p.fst = fd)) t) = List.lookup fd' t := ih
        rw [ih']

theorem get_erase (t : FdTable) (fd fd' : Int) :
    (t.erase fd).get fd' = if fd' = fd then none else t.get fd' := by
  unfold get erase
  induction t with
  | nil => simp
  | cons p t ih =>
    obtain ⟨a, b⟩ := p
    by_cases ha : a = fd
    · subst ha
      simp only [List.filter_cons, ne_eq, not_true_eq_false, decide_false, List.lookup_cons]
      by_cases h : fd' = a
      · rw [if_pos h] at ih ⊢; exact ih
      · rw [if_neg h] at ih ⊢
        rw [show (fd' == a) = false by simpa using h]
        exact ih
    · simp only [List.filter_cons, ne_eq, ha, not_false_eq_true, decide_true, if_true, List.lookup_cons]
      by_cases h : fd' = fd
      · rw [if_pos h] at ih ⊢
        rw [show (fd' == a) = false by simpa [h] using fun e => ha e.symm]
        exact ih
      · rw [if_neg h] at ih ⊢
        rw [ih]

theorem has_iff (t : FdTable) (fd : Int) : t.has fd = true ↔ fd ∈ t.map Prod.fst := by
  unfold has get
  induction t with
  | nil => simp
  | cons p t ih =>
    obtain ⟨a, b⟩ := p
    rw [List.lookup_cons]
    by_cases h : fd = a
    · subst h; simp
    · rw [show (fd == a) = false by simpa using h]
      simp [ih, h]

theorem erase_of_not_has {t : FdTable} {fd : Int} (h : t.has fd = false) : t.erase fd = t := by
  unfold erase
  refine List.filter_eq_self.2 fun p hp => ?_
  have : fd ∉ t.map Prod.fst := by rw [← has_iff, h]; simp
  simp only [ne_eq, decide_eq_true_eq]
  intro e
  exact this (e ▸ List.mem_map_of_mem hp)

theorem set_of_not_has {t : FdTable} {fd : Int} (h : t.has fd = false) (e : FdE) :
    t.set fd e = (fd, e) :: t := by
  unfold set; rw [erase_of_not_has h]

theorem erase_cons_self {t : FdTable} {fd : Int} (h : t.has fd = false) (e : FdE) :
    erase ((fd, e) :: t) fd = t := by
  show List.filter _ _ = _
  rw [List.filter_cons]
  simp only [ne_eq, not_true_eq_false, decide_false]
  exact erase_of_not_has h

theorem erase_cons_ne {t : FdTable} {fd fd' : Int} (h : fd' ≠ fd) (e : FdE) :
    erase ((fd', e) :: t) fd = (fd', e) :: t.erase fd := by
  show List.filter _ _ = _
  rw [List.filter_cons]
  simp [h, erase]

theorem has_cons (t : FdTable) (fd fd' : Int) (e : FdE) :
    has ((fd, e) :: t) fd' = (decide (fd' = fd) || t.has fd') := by
  unfold has get
  rw [List.lookup_cons]
  by_cases h : fd' = fd
  · subst h; simp
  · rw [show (fd' == fd) = false by simpa using h]; simp [h]

/-! ## The lowest free descriptor -/

/-- A list that contains `0, …, n` has more than `n` elements. -/
theorem length_of_range (n : Nat) : ∀ (l : List Int), (∀ i : Nat, i < n → (i : Int) ∈ l) → n ≤ l.length := by
  induction n with
  | zero => intros; omega
  | succ n ih =>
    intro l h
    have hn : (n : Int) ∈ l := h n (by omega)
    have := ih (l.erase (n : Int)) fun i hi => by
      refine (List.mem_erase_of_ne ?_).2 (h i (by omega))
      omega
    rw [List.length_erase_of_mem hn] at this
    have := List.length_pos_of_mem hn
    omega

theorem freeFrom_free (t : FdTable) : ∀ (k n : Nat), (∀ i : Nat, i < n → t.has i = true) →
    n + k = t.length → t.has (t.freeFrom n k) = false ∧ ∃ m : Nat, t.freeFrom n k = m ∧ n ≤ m ∧
      ∀ i : Nat, i < m → t.has i = true := by
  intro k
  induction k with
  | zero =>
    intro n h hl
    refine ⟨?_, n, rfl, Nat.le_refl n, h⟩
    show t.has (n : Int) = false
    by_cases hn : t.has (n : Int) = true
    · have := length_of_range (n + 1) (t.map Prod.fst) fun i hi => by
        rw [← has_iff]
        by_cases e : i = n
        · rw [e]; exact hn
        · exact h i (by omega)
      rw [List.length_map] at this
      omega
    · simpa using hn
  | succ k ih =>
    intro n h hl
    unfold freeFrom
    by_cases hn : t.has (n : Int) = true
    · rw [if_pos hn]
      obtain ⟨h1, m, e, h2, h3⟩ := ih (n + 1) (fun i hi => by
        by_cases e : i = n
        · rw [e]; exact hn
        · exact h i (by omega)) (by omega)
      exact ⟨h1, m, e, by omega, h3⟩
    · rw [if_neg hn]
      exact ⟨by simpa using hn, n, rfl, Nat.le_refl n, h⟩

/-- The descriptor chosen for a new file is free, and all smaller ones are in use. -/
theorem lowestFree_free (t : FdTable) : t.has t.lowestFree = false ∧
    ∃ m : Nat, t.lowestFree = m ∧ ∀ i : Nat, i < m → t.has i = true := by
  obtain ⟨h1, m, e, _, h2⟩ := freeFrom_free t t.length 0 (fun i h => by omega) (by omega)
  exact ⟨h1, m, e, h2⟩

theorem lowestFree_not_has (t : FdTable) : t.has t.lowestFree = false := (lowestFree_free t).1

theorem lowestFree_nonneg (t : FdTable) : 0 ≤ t.lowestFree := by
  obtain ⟨_, m, e, _⟩ := lowestFree_free t
  omega

/-- With the standard descriptors open, a new one is larger than all of them. -/
theorem lowestFree_std {t : FdTable} (h : ∀ i : Nat, i < 3 → t.has i = true) : 3 ≤ t.lowestFree := by
  obtain ⟨h1, m, e, _⟩ := lowestFree_free t
  rw [e] at h1 ⊢
  by_cases hm : m < 3
  · rw [h m hm] at h1; cases h1
  · omega

end FdTable

/-! ## `pipe` and `close` -/

/-- A successful `pipe`. -/
theorem pipeM_ok {w : World} {s : Sh} (h : w.pipeOk s.trace = true) : ∃ r wr : Int,
    pipeM w s = (.ok (some (r, wr)), { s with
      fds := (wr, ⟨.pipeW s.nextPipe, false⟩) :: (r, ⟨.pipeR s.nextPipe, false⟩) :: s.fds
      nextPipe := s.nextPipe + 1 }) ∧
    s.fds.has r = false ∧ s.fds.has wr = false ∧ wr ≠ r ∧ 0 ≤ r ∧ 0 ≤ wr ∧
    ((∀ i : Nat, i < 3 → s.fds.has i = true) → 3 ≤ r ∧ 3 ≤ wr) := by
  have h1 := FdTable.lowestFree_not_has s.fds
  have h2 := FdTable.lowestFree_not_has ((s.fds.lowestFree, ⟨.pipeR s.nextPipe, false⟩) :: s.fds)
  refine ⟨s.fds.lowestFree, FdTable.lowestFree ((s.fds.lowestFree, ⟨.pipeR s.nextPipe, false⟩) :: s.fds),
    ?_, h1, ?_, ?_, FdTable.lowestFree_nonneg _, FdTable.lowestFree_nonneg _, ?_⟩
  · unfold pipeM
    rw [if_pos h]
    simp only
    rw [FdTable.set_of_not_has h1, FdTable.set_of_not_has h2]
  · rw [FdTable.has_cons] at h2
    simp only [Bool.or_eq_false_iff] at h2
    exact h2.2
  · rw [FdTable.has_cons] at h2
    simp only [Bool.or_eq_false_iff, decide_eq_false_iff_not] at h2
    exact h2.1
  · intro hs
    refine ⟨FdTable.lowestFree_std hs, FdTable.lowestFree_std fun i hi => ?_⟩
    rw [FdTable.has_cons, hs i hi, Bool.or_true]

theorem closeM_has {s : Sh} {fd : Int} (h : s.fds.has fd = true) :
    closeM fd s = (.ok true, { s with fds := s.fds.erase fd }) := by
  unfold closeM; rw [if_pos h]

theorem closeM_not {s : Sh} {fd : Int} (h : s.fds.has fd = false) :
    closeM fd s = (.ok false, s) := by
  unfold closeM; rw [h]; rfl

theorem closeU_has {s : Sh} {fd : Int} (h : s.fds.has fd = true) :
    closeU fd s = (.ok (), { s with fds := s.fds.erase fd }) := by
  unfold closeU; rw [run_bind_ok (closeM_has h)]; rfl

theorem dup2U_has {s : Sh} {a b : Int} {e : FdE} (h : s.fds.get a = some e) (hab : a ≠ b) :
    dup2U a b s = (.ok (), { s with fds := s.fds.set b { e with cloexec := false } }) := by
  unfold dup2U; rw [h]; simp only [if_neg hab]

end Rsh
