import Verif.Spec.Blanks

/-!
# `split_whitespace` and `trim`
-/

namespace Rsh

open Spec

theorem splitWsAux_nil_skip {b : Str} (hb : AllBlank b) (t : Str) : splitWsAux [] (b ++ t) = splitWsAux [] t := by
  induction b with
  | nil => rfl
  | cons c b ih =>
    rw [List.cons_append, splitWsAux, if_pos (hb c List.mem_cons_self), if_pos (by rfl)]
    exact ih fun d hd => hb d (List.mem_cons_of_mem _ hd)

theorem splitWsAux_word {x : Str} (hx : NoBlank x) (cur t : Str) :
    splitWsAux cur (x ++ t) = splitWsAux (cur ++ x) t := by
  induction x generalizing cur with
  | nil => simp
  | cons c x ih =>
    rw [List.cons_append, splitWsAux, if_neg (by simp [hx c List.mem_cons_self]),
      ih fun d hd => hx d (List.mem_cons_of_mem _ hd)]
    simp

theorem splitWsAux_end {cur : Str} (hc : cur ≠ []) {t : Str} (ht : ∀ c ∈ t.head?, isWs c = true) :
    splitWsAux cur t = cur :: splitWsAux [] t := by
  have he : ¬ cur.isEmpty = true := by simpa using hc
  cases t with
  | nil => simp [splitWsAux, hc]
  | cons c t =>
    have hw : isWs c = true := ht c rfl
    rw [splitWsAux, if_pos hw, if_neg he, splitWsAux, if_pos hw, if_pos (by rfl)]

theorem splitWs_of_wordsOf {t : Str} {ws : List Str} (h : WordsOf t ws) : splitWs t = ws := by
  unfold splitWs
  induction h with
  | nil hb =>
    have := splitWsAux_nil_skip hb []
    rw [List.append_nil] at this
    rw [this]; rfl
  | @cons b x t xs hb hx hn ht _ ih =>
    rw [splitWsAux_nil_skip hb, splitWsAux_word hn, List.nil_append, splitWsAux_end hx ht, ih]

theorem wordsOf_exists : ∀ (n : Nat) (t : Str), t.length ≤ n → ∃ ws, WordsOf t ws := by
  intro n
  induction n with
  | zero =>
    intro t ht
    obtain rfl : t = [] := List.length_eq_zero_iff.1 (by omega)
    exact ⟨[], .nil (by simp [AllBlank])⟩
  | succ n ih =>
    intro t ht
    have hb : AllBlank (t.takeWhile isWs) := fun c hc => by
      have := List.all_takeWhile (l := t) (p := isWs)
      exact List.all_eq_true.1 this c hc
    rcases hr : t.dropWhile isWs with _ | ⟨c, r⟩
    · refine ⟨[], .nil ?_⟩
      have := List.takeWhile_append_dropWhile (p := isWs) (l := t)
      rw [hr, List.append_nil] at this
      rw [← this]; exact hb
    · have hc : isWs c = false := by
        have := List.head?_dropWhile_not isWs t
        rw [hr] at this
        simpa using this
      have hx : NoBlank ((c :: r).takeWhile fun c => !isWs c) := fun d hd => by
        have := List.all_takeWhile (l := c :: r) (p := fun c => !isWs c)
        simpa using List.all_eq_true.1 this d hd
      have hlen : ((c :: r).dropWhile fun c => !isWs c).length ≤ n := by
        have h1 : t.length = (t.takeWhile isWs).length + (c :: r).length := by
          rw [← hr, ← List.length_append, List.takeWhile_append_dropWhile]
        have h2 : (c :: r).dropWhile (fun c => !isWs c) = r.dropWhile fun c => !isWs c := by
          rw [List.dropWhile_cons, if_pos (by simp [hc])]
        rw [h2]
        have h3 : (r.dropWhile fun c => !isWs c).length ≤ r.length := (List.dropWhile_sublist _).length_le
        simp only [List.length_cons] at h1
        omega
      obtain ⟨xs, hxs⟩ := ih _ hlen
      refine ⟨((c :: r).takeWhile fun c => !isWs c) :: xs, ?_⟩
      have := WordsOf.cons hb (x := (c :: r).takeWhile fun c => !isWs c) (by simp [hc]) hx (fun d hd => by
        have := List.head?_dropWhile_not (fun c => !isWs c) (c :: r)
        rw [Option.mem_def.1 hd] at this
        simpa using this) hxs
      rw [List.takeWhile_append_dropWhile] at this
      rw [show t = t.takeWhile isWs ++ c :: r by rw [← hr, List.takeWhile_append_dropWhile]]
      exact this

/-- `split_whitespace` gives exactly the words. -/
theorem splitWs_iff {t : Str} {ws : List Str} : splitWs t = ws ↔ WordsOf t ws := by
  constructor
  · rintro rfl
    obtain ⟨ws, h⟩ := wordsOf_exists _ t (Nat.le_refl _)
    rw [splitWs_of_wordsOf h]; exact h
  · exact splitWs_of_wordsOf

instance (t : Str) (ws : List Str) : Decidable (WordsOf t ws) := decidable_of_iff _ splitWs_iff

theorem dropWhile_blank {a t : Str} (ha : AllBlank a) (ht : ∀ c ∈ t.head?, isWs c = false) :
    (a ++ t).dropWhile isWs = t := by
  induction a with
  | nil =>
    cases t with
    | nil => rfl
    | cons c t => rw [List.nil_append, List.dropWhile_cons, if_neg (by simp [ht c rfl])]
  | cons c a ih =>
    rw [List.cons_append, List.dropWhile_cons, if_pos (ha c List.mem_cons_self)]
    exact ih fun d hd => ha d (List.mem_cons_of_mem _ hd)

theorem trimWs_of_trimmed {text t : Str} (h : Trimmed text t) : trimWs text = t := by
  obtain ⟨a, b, rfl, ha, hb, h1, h2, h3⟩ := h
  unfold trimWs
  have e1 : (a ++ (t ++ b)).dropWhile isWs = t ++ b := by
    apply dropWhile_blank ha
    cases t with
    | nil => rw [h3 rfl]; simp
    | cons c t => simpa using h1
  rw [e1, List.reverse_append, dropWhile_blank, List.reverse_reverse]
  · intro c hc; exact hb c (List.mem_reverse.1 hc)
  · simpa using h2

theorem trimmed_trimWs (text : Str) : Trimmed text (trimWs text) := by
  have ha : AllBlank (text.takeWhile isWs) := fun c hc =>
    List.all_eq_true.1 (List.all_takeWhile (l := text) (p := isWs)) c hc
  have hb : AllBlank ((text.dropWhile isWs).reverse.takeWhile isWs).reverse := fun c hc =>
    List.all_eq_true.1 (List.all_takeWhile (p := isWs)) c (List.mem_reverse.1 hc)
  have e : text.dropWhile isWs = trimWs text ++ ((text.dropWhile isWs).reverse.takeWhile isWs).reverse := by
    unfold trimWs
    rw [← List.reverse_append, List.takeWhile_append_dropWhile, List.reverse_reverse]
  have hh := List.head?_dropWhile_not isWs text
  refine ⟨text.takeWhile isWs, _, ?_, ha, hb, ?_, ?_, ?_⟩
  · rw [← e, List.takeWhile_append_dropWhile]
  · intro c hc
    rw [e] at hh
    rcases ht : trimWs text with _ | ⟨d, r⟩
    · rw [ht] at hc; simp at hc
    · rw [ht] at hc hh
      simp at hc hh
      rw [← hc]; exact hh
  · intro c hc
    unfold trimWs at hc
    rw [List.getLast?_reverse] at hc
    have := List.head?_dropWhile_not isWs (text.dropWhile isWs).reverse
    rw [Option.mem_def.1 hc] at this
    simpa using this
  · intro h0
    rw [h0, List.nil_append] at e
    rw [← e]
    rcases hd : text.dropWhile isWs with _ | ⟨d, r⟩
    · rfl
    · rw [hd] at hh e hb
      have : isWs d = true := hb d (by rw [← e]; exact List.mem_cons_self)
      simp [this] at hh

/-- `trim` takes away exactly the blanks around a text. -/
theorem trimWs_iff {text t : Str} : trimWs text = t ↔ Trimmed text t :=
  ⟨fun e => e ▸ trimmed_trimWs text, trimWs_of_trimmed⟩

instance (text t : Str) : Decidable (Trimmed text t) := decidable_of_iff _ trimWs_iff

end Rsh
