import Verif.Spec.Unused
import Verif.Spec.Demo
import Verif.Proofs.Blanks
import Verif.Proofs.Substitution

/-!
# Functions nothing calls
-/

namespace Rsh

open Spec

/-! ## C132 -/

theorem recombineGo_total (ws : List Str) : ∀ acc q i, i ≤ acc.length → (q = true → i < acc.length) →
    ∃ r, recombineGo ws acc q i = some r ∧ acc.length ≤ r.length := by
  induction ws with
  | nil => exact fun acc _ _ _ _ => ⟨acc, rfl, Nat.le_refl _⟩
  | cons w ws ih =>
    intro acc q i hi hq
    unfold recombineGo
    by_cases h : startsWith ['"'] w = true
    · rw [if_pos h]
      obtain ⟨r, e, l⟩ := ih (acc ++ [w]) true i (by simp; omega) (by simp; omega)
      exact ⟨r, e, by simp at l; omega⟩
    · rw [if_neg h]
      cases q with
      | true =>
        have hl := hq rfl
        rw [if_pos rfl, if_pos hl]
        obtain ⟨r, e, l⟩ := ih (acc.modify i fun x => x ++ ' ' :: w) (!endsWith ['"'] w) i (by simpa using hi) (by simpa using fun _ => hl)
        exact ⟨r, e, by simpa using l⟩
      | false =>
        rw [if_neg (by simp)]
        obtain ⟨r, e, l⟩ := ih (acc ++ [w]) false (i + 1) (by simp; omega) (by simp)
        exact ⟨r, e, by simp at l; omega⟩

theorem blankPieces_total (t : Str) : ∃ r, blankPieces t = some r ∧ (r = [] ↔ splitWs t = []) := by
  unfold blankPieces
  by_cases h : hasChar '"' t = true
  · rw [if_pos h]
    unfold recombine
    cases e : splitWs t with
    | nil => exact ⟨[], rfl, by simp⟩
    | cons w ws =>
      unfold recombineGo
      by_cases hw : startsWith ['"'] w = true
      · rw [if_pos hw]
        obtain ⟨r, e, l⟩ := recombineGo_total ws ([] ++ [w]) true 0 (by simp) (by simp)
        exact ⟨r, e, by cases r <;> simp at l ⊢⟩
      · rw [if_neg hw, if_neg (by simp)]
        obtain ⟨r, e, l⟩ := recombineGo_total ws ([] ++ [w]) false (0 + 1) (by simp) (by simp)
        exact ⟨r, e, by cases r <;> simp at l ⊢⟩
  · rw [if_neg h]
    exact ⟨_, rfl, Iff.rfl⟩

theorem head_of_noQuote {w : Str} (h : '"' ∉ w) : startsWith ['"'] w = false := by
  rw [Bool.eq_false_iff, Ne, startsWith_single]
  intro e
  exact h (List.mem_of_mem_head? e)

theorem recombineGo_plain (ws : List Str) (rest acc : List Str) (i : Nat) (h : ∀ w ∈ ws, '"' ∉ w) :
    recombineGo (ws ++ rest) acc false i = recombineGo rest (acc ++ ws) false (i + ws.length) := by
  induction ws generalizing acc i with
  | nil => simp
  | cons w ws ih =>
    rw [List.cons_append, recombineGo, if_neg (by simp [head_of_noQuote (h w List.mem_cons_self)]), if_neg (by simp),
      ih _ _ fun v hv => h v (List.mem_cons_of_mem _ hv)]
    simp [Nat.add_assoc, Nat.add_comm 1]

theorem noEnd {w : Str} (h : '"' ∉ w) : endsWith ['"'] w = false := by
  rw [Bool.eq_false_iff]
  intro e
  unfold endsWith at e
  rw [List.isSuffixOf_iff_suffix] at e
  exact h (e.subset List.mem_cons_self)

theorem spaced_cons (x w : Str) (ws : List Str) : spaced ((x ++ ' ' :: w) :: ws) = x ++ ' ' :: spaced (w :: ws) := by
  cases ws <;> simp [spaced]

theorem spaced_foldl (x : Str) (ws : List Str) : ws.foldl (fun x w => x ++ ' ' :: w) x = spaced (x :: ws) := by
  induction ws generalizing x with
  | nil => rfl
  | cons w ws ih => rw [List.foldl_cons, ih, spaced_cons]; rfl

theorem modify_last (pre : List Str) (x : Str) (f : Str → Str) : (pre ++ [x]).modify pre.length f = pre ++ [f x] := by
  induction pre with
  | nil => rfl
  | cons a pre ih => simpa using ih

theorem recombineGo_mid (mid rest pre : List Str) (x : Str) (h : ∀ w ∈ mid, '"' ∉ w) :
    recombineGo (mid ++ rest) (pre ++ [x]) true pre.length =
      recombineGo rest (pre ++ [mid.foldl (fun x w => x ++ ' ' :: w) x]) true pre.length := by
  induction mid generalizing x with
  | nil => rfl
  | cons w mid ih =>
    have hw := h w List.mem_cons_self
    rw [List.cons_append, recombineGo, if_neg (by simp [head_of_noQuote hw]), if_pos rfl, if_pos (by simp), modify_last,
      noEnd hw, List.foldl_cons]
    exact ih _ fun v hv => h v (List.mem_cons_of_mem _ hv)

theorem recombine_phrase (pre mid post : List Str) (a b : Str) (h : ∀ x ∈ pre ++ post ++ (a :: b :: mid), '"' ∉ x) (hb : b ≠ []) :
    recombine (pre ++ (('"' :: a) :: (mid ++ [b ++ ['"']])) ++ post) =
      some (pre ++ (spaced (('"' :: a) :: (mid ++ [b ++ ['"']])) :: post)) := by
  have hpre : ∀ w ∈ pre, '"' ∉ w := fun w hw => h w (by simp [hw])
  have hpost : ∀ w ∈ post, '"' ∉ w := fun w hw => h w (by simp [hw])
  have hmid : ∀ w ∈ mid, '"' ∉ w := fun w hw => h w (by simp [hw])
  have hbq : '"' ∉ b := h b (by simp)
  unfold recombine
  rw [List.append_assoc, recombineGo_plain pre _ _ _ hpre, List.nil_append, Nat.zero_add, List.cons_append, recombineGo,
    if_pos (by simp [startsWith]), List.append_assoc, recombineGo_mid _ _ _ _ hmid, List.cons_append, List.nil_append, recombineGo,
    if_neg, if_pos rfl, if_pos (by simp), modify_last,
    show endsWith ['"'] (b ++ ['"']) = true by unfold endsWith; rw [List.isSuffixOf_iff_suffix]; exact ⟨b, rfl⟩]
  · have e := recombineGo_plain post [] (pre ++ [(mid ++ [b ++ ['"']]).foldl (fun x w => x ++ ' ' :: w) ('"' :: a)]) pre.length hpost
    rw [List.append_nil] at e
    rw [List.foldl_append, List.foldl_cons, List.foldl_nil] at e
    show recombineGo post _ false _ = _
    rw [e, recombineGo, ← List.foldl_nil (f := fun (x : Str) w => x ++ ' ' :: w) (b := _ ++ ' ' :: (b ++ ['"']))]
    rw [← List.foldl_cons (f := fun (x : Str) w => x ++ ' ' :: w), ← List.foldl_append, spaced_foldl, List.append_assoc]
    rfl
  · rw [startsWith_single]
    cases b with
    | nil => exact absurd rfl hb
    | cons c b =>
      intro e
      simp only [List.cons_append, List.head?_cons, Option.some.injEq] at e
      exact hbq (by simp [e])

theorem wordsOf_noQuote {t : Str} {ws : List Str} (h : WordsOf t ws) : (∀ w ∈ ws, '"' ∉ w) ↔ '"' ∉ t := by
  induction h with
  | nil hb => simp; intro h; exact absurd (hb _ h) (by decide)
  | cons hb hx hn ht hw ih =>
    simp only [List.mem_cons, forall_eq_or_imp, ih, List.mem_append, not_or]
    exact ⟨fun ⟨h1, h2⟩ => ⟨fun h => absurd (hb _ h) (by decide), h1, h2⟩, fun ⟨_, h1, h2⟩ => ⟨h1, h2⟩⟩

theorem blankPieces_splits {t : Str} {ws : List Str} (h : Splits t ws) : blankPieces t = some ws := by
  unfold blankPieces
  cases h with
  | plain h hq => rw [if_neg (by simpa [hasChar_iff] using hq), splitWs_of_wordsOf h]
  | @phrase pre a mid b post h hq hb =>
    rw [if_pos, splitWs_of_wordsOf h, recombine_phrase _ _ _ _ _ hq hb]
    rw [hasChar_iff]
    apply Classical.byContradiction
    intro hn
    exact (wordsOf_noQuote h).2 hn ('"' :: a) (by simp) List.mem_cons_self

theorem argPieces_splits {ws : List Str} (f : Str → List Str) (h : ∀ w ∈ ws, ArgSplits w (f w)) :
    argPieces ws = some (ws.flatMap f) := by
  induction ws with
  | nil => rfl
  | cons w ws ih =>
    unfold argPieces
    rw [ih fun v hv => h v (List.mem_cons_of_mem _ hv)]
    have e : (if hasChar '\'' w then some [w] else blankPieces w) = some (f w) := by
      have hw := h w List.mem_cons_self
      generalize f w = l at hw
      cases hw with
      | single hs => rw [if_pos (hasChar_iff.2 hs)]
      | split hs hp => rw [if_neg (by simpa [hasChar_iff] using hs), blankPieces_splits hp]
    rw [e]
    rfl

/-- C132, as far as it holds: the name and the arguments are split at blanks, in order; a phrase in double quotes stays
together, if there is one in the text, and an argument with a single quote is left as it is.  Missing: texts with more than
one phrase in double quotes, and phrases of one word (see below). -/
theorem C132_split_partial (c : SimpleCommand) (n : Str) (ws : List Str) (f : Str → List Str) (hq : '\'' ∉ c.name)
    (hn : Splits c.name (n :: ws)) (ha : ∀ sf, c.suffix = some sf → ∀ w ∈ sf.word, ArgSplits w (f w)) :
    removeWhitespace c = some { c with
      name := n
      suffix := some ⟨(c.suffix.map Suffix.ioRedirect).getD [], ws ++ ((c.suffix.map Suffix.word).getD []).flatMap f⟩ } := by
  unfold removeWhitespace
  rw [if_neg (by simpa [hasChar_iff] using hq), blankPieces_splits hn]
  cases h : c.suffix with
  | none => simp
  | some sf =>
    dsimp only
    rw [argPieces_splits f (ha sf h)]
    rfl

/-- C132: a command whose name has a single quote is left as it is. -/
theorem C132_single (c : SimpleCommand) (h : '\'' ∈ c.name) : removeWhitespace c = some c := by
  unfold removeWhitespace
  rw [if_pos (hasChar_iff.2 h)]

theorem argPieces_total (ws : List Str) : ∃ r, argPieces ws = some r := by
  induction ws with
  | nil => exact ⟨_, rfl⟩
  | cons w ws ih =>
    obtain ⟨r, e⟩ := ih
    obtain ⟨p, ep, -⟩ := blankPieces_total w
    unfold argPieces
    rw [e, ep]
    split <;> exact ⟨_, rfl⟩

/-- C132, when it crashes: for a name of blanks only, and for no other command. -/
theorem C132_crash (c : SimpleCommand) : removeWhitespace c = none ↔ AllBlank c.name := by
  unfold removeWhitespace
  obtain ⟨r, e, hr⟩ := blankPieces_total c.name
  have hb : splitWs c.name = [] ↔ AllBlank c.name := by
    rw [splitWs_iff]
    constructor
    · intro h
      generalize hl : ([] : List Str) = l at h
      generalize c.name = t at h
      cases h with
      | nil hb => exact hb
      | cons => cases hl
    · exact .nil
  by_cases h : '\'' ∈ c.name
  · rw [if_pos (hasChar_iff.2 h)]
    exact iff_of_false (by simp) fun hb => absurd (hb _ h) (by decide)
  · rw [if_neg (by simpa [hasChar_iff] using h), e, ← hb, ← hr]
    cases r with
    | nil => simp
    | cons n ws =>
      obtain ⟨as, ea⟩ : ∃ as, ∀ sf, c.suffix = some sf → argPieces sf.word = some as := by
        cases c.suffix with
        | none => exact ⟨[], fun _ h => nomatch h⟩
        | some sf =>
          obtain ⟨as, ea⟩ := argPieces_total sf.word
          exact ⟨as, fun _ h => by cases h; exact ea⟩
      dsimp only
      cases hs : c.suffix with
      | none => simp
      | some sf => simp [ea sf hs]

/-- A command of C132: `ls -l` as the name, and arguments of which one has a phrase. -/
example : removeWhitespace ⟨none, cs!"ls  -l", some ⟨[], [cs!"x y", cs!"p \"a  b c\" q", cs!"'k l'"]⟩⟩ =
    some ⟨none, cs!"ls", some ⟨[], [cs!"-l", cs!"x", cs!"y", cs!"p", cs!"\"a b c\"", cs!"q", cs!"'k l'"]⟩⟩ := by rfl

example : Splits (cs!"p \"a  b c\" q") [cs!"p", cs!"\"a b c\"", cs!"q"] :=
  .phrase (t := cs!"p \"a  b c\" q") (pre := [cs!"p"]) (a := cs!"a") (mid := [cs!"b"]) (b := cs!"c") (post := [cs!"q"])
    (splitWs_iff.1 (by decide)) (by decide) (by decide)

/-- C132 fails: a quoted word takes the next word with it, and a second phrase is torn. -/
theorem C132_counterexample :
    blankPieces (cs!"\"a\" b") = some [cs!"\"a\" b"] ∧
    blankPieces (cs!"\"a b\" c \"d e\"") = some [cs!"\"a b\"", cs!"c e\"", cs!"\"d"] := by decide

/-! ## C133 -/

theorem eachM_pure {f : Str → M Str} {g : Str → Str} {s : Sh} (ws : List Str) (h : ∀ w ∈ ws, f w s = (.ok (g w), s)) :
    eachM f ws s = (.ok (ws.map g), s) := by
  induction ws with
  | nil => rfl
  | cons w ws ih =>
    unfold eachM
    rw [run_bind_ok (h w List.mem_cons_self), run_bind_ok (ih fun v hv => h v (List.mem_cons_of_mem _ hv))]
    rfl

theorem getLast_snoc (c : Char) (t : Str) (q : Char) : (c :: (t ++ [q])).getLast? = some q :=
  List.getLast?_concat (l := c :: t)

theorem endsWith_single (c : Char) (s : Str) : endsWith [c] s = true ↔ s.getLast? = some c := by
  unfold endsWith
  rw [List.isSuffixOf_iff_suffix]
  constructor
  · rintro ⟨a, rfl⟩; simp
  · intro h
    obtain ⟨a, rfl⟩ := List.getLast?_eq_some_iff.1 h
    exact ⟨a, rfl⟩

theorem cutIf_bared (w : World) (rec : List AndOr → M Int) {q : Char} (hq : q = '\'' ∨ q = '"') {t v : Str} (h : Bared q t v)
    (hd : q = '"' → ∀ c ∈ t, c ≠ '$' ∧ c ≠ '`') (s : Sh) : cutIf w rec q t s = (.ok v, s) := by
  unfold cutIf
  have hcut : ∀ t v, t.head? = some q → t.tail.dropLast = v → (q = '"' → ∀ c ∈ t, c ≠ '$' ∧ c ≠ '`') →
      cutQuotes w rec t s = (.ok v, s) := by
    intro t v ht hv hd
    unfold cutQuotes
    rw [ht]
    rcases hq with rfl | rfl
    · rw [if_neg (by decide), hv]; rfl
    · rw [if_pos rfl]
      have := cutLoop_plain w rec t.tail.dropLast [] 1 (s := s) (b := []) (s' := s)
        (fun c hc => hd rfl c (List.mem_of_mem_tail (List.dropLast_subset _ hc))) (cutLoop_end ..)
      simpa [hv] using this
  cases h with
  | quoted =>
    rw [if_pos (by rw [Bool.and_eq_true, startsWith_single, endsWith_single]; exact ⟨rfl, getLast_snoc _ _ _⟩)]
    exact hcut _ _ rfl (by simp) hd
  | lone =>
    rw [if_pos (by simp [startsWith_single, endsWith_single])]
    exact hcut _ _ rfl (by simp) hd
  | other ho =>
    rw [if_neg]
    · rfl
    · rw [Bool.and_eq_true, startsWith_single, endsWith_single]
      rintro ⟨h1, h2⟩
      rcases ho with ho | ho <;> contradiction

/-- C133, as far as it holds: of the name and of every argument in quotes of the one kind the quotes are removed; the other
words, and the shell, are left as they are.  Missing: `$` and backticks in words in double quotes. -/
theorem C133_quotes_partial (w : World) (rec : List AndOr → M Int) (q : Char) (hq : q = '\'' ∨ q = '"') (c : SimpleCommand)
    (v : Str) (f : Str → Str) (hn : Bared q c.name v) (ha : ∀ sf, c.suffix = some sf → ∀ w ∈ sf.word, Bared q w (f w))
    (hd : q = '"' → ∀ t ∈ c.name :: (c.suffix.map Suffix.word).getD [], ∀ d ∈ t, d ≠ '$' ∧ d ≠ '`') (s : Sh) :
    removeQuotes w rec q c s =
      (.ok { c with name := v, suffix := c.suffix.map fun sf => { sf with word := sf.word.map f } }, s) := by
  unfold removeQuotes
  rw [run_bind_ok (cutIf_bared w rec hq hn (fun e => hd e _ (by simp)) s)]
  cases h : c.suffix with
  | none => rfl
  | some sf =>
    dsimp only
    rw [run_bind_ok (eachM_pure sf.word fun t ht =>
      cutIf_bared w rec hq (ha sf h t ht) (fun e => hd e t (by simp [h, ht])) s)]
    rfl

/-- Every word is bared to exactly one text, so the hypotheses of `C133_quotes_partial` can be met for every command. -/
theorem C133_bared (q : Char) (t : Str) : ∃ v, Bared q t v ∧ ∀ v', Bared q t v' → v' = v := by
  by_cases h : t.head? = some q ∧ t.getLast? = some q
  · obtain ⟨h1, h2⟩ := h
    obtain ⟨a, rfl⟩ := List.getLast?_eq_some_iff.1 h2
    cases a with
    | nil =>
      refine ⟨[], .lone, fun v' h => ?_⟩
      generalize ht : [] ++ [q] = t at h
      cases h with
      | quoted => simp at ht
      | lone => rfl
      | other h => subst ht; simp at h
    | cons c a =>
      have hc : c = q := by simpa using h1
      subst hc
      refine ⟨a, .quoted, fun v' h => ?_⟩
      generalize ht : c :: a ++ [c] = t at h
      cases h with
      | quoted => simpa using ht.symm
      | lone => simp at ht
      | other h =>
        subst ht
        rcases h with h | h
        · exact absurd rfl h
        · exact absurd (getLast_snoc c a c) h
  · refine ⟨t, .other ?_, fun v' hv => ?_⟩
    · by_cases h1 : t.head? = some q
      · exact .inr fun h2 => h ⟨h1, h2⟩
      · exact .inl h1
    · cases hv with
      | quoted => exact absurd ⟨rfl, getLast_snoc ..⟩ h
      | lone => exact absurd ⟨rfl, rfl⟩ h
      | other => rfl

/-- C133 fails: in double quotes a `$` takes the next character with it. -/
theorem C133_counterexample :
    (match removeQuotes (demoWorld []) (fun _ => pure 0) '"' ⟨none, cs!"\"$5\"", none⟩ (demoShell []) with
      | (.ok c, _) => some c.name
      | _ => none) = some (cs!"$") := by decide +kernel

/-! ## C134 -/

theorem isSubst_iff (t : Str) : isSubst t = true ↔ Substitutes t := by
  unfold isSubst Substitutes
  rw [Bool.or_eq_true, Bool.and_eq_true, Bool.and_eq_true, startsWith_single, endsWith_single, endsWith_single]
  constructor
  · rintro (⟨h1, h2⟩ | ⟨h1, h2⟩)
    · unfold startsWith at h1
      rw [List.isPrefixOf_iff_prefix] at h1
      obtain ⟨b, rfl⟩ := h1
      obtain ⟨a, e⟩ := List.getLast?_eq_some_iff.1 h2
      match a, e with
      | [], e => simp at e
      | [_], e => simp at e
      | x :: y :: a, e =>
        simp at e
        obtain ⟨rfl, rfl, rfl⟩ := e
        exact .inl ⟨a, rfl⟩
    · obtain ⟨a, rfl⟩ := List.getLast?_eq_some_iff.1 h2
      cases a with
      | nil => exact .inr (.inr rfl)
      | cons c a =>
        cases (by simpa using h1 : c = '`')
        exact .inr (.inl ⟨a, rfl⟩)
  · rintro (⟨x, rfl⟩ | ⟨x, rfl⟩ | rfl)
    · exact .inl ⟨by simp [startsWith], getLast_snoc '$' ('(' :: x) ')'⟩
    · exact .inr ⟨rfl, getLast_snoc ..⟩
    · exact .inr ⟨rfl, rfl⟩

theorem substWord_id (w : World) (rec : List AndOr → M Int) {t : Str} (h : ¬ Substitutes t) (s : Sh) :
    substWord w rec t s = (.ok t, s) := by
  unfold substWord
  rw [if_neg (fun e => h ((isSubst_iff t).1 e))]
  rfl

theorem substAssign_id (w : World) (rec : List AndOr → M Int) {t : Str} (h : ¬ AssignSubstitutes t) (s : Sh) :
    substAssign w rec t s = (.ok t, s) := by
  unfold substAssign
  rw [if_neg]
  · rfl
  · rw [Bool.or_eq_true, Bool.and_eq_true, Bool.and_eq_true, endsWith_single, endsWith_single]
    rintro (⟨h1, h2⟩ | ⟨_, h2⟩)
    · obtain ⟨a, b, e⟩ := (hasSub_iff _ _).1 h1
      exact h (.inl ⟨h2, a, b, by simpa using e⟩)
    · exact h (.inr h2)

/-- C134: a command without substitutions is left as it is, and so is the shell. -/
theorem C134_none (w : World) (rec : List AndOr → M Int) (c : SimpleCommand)
    (hp : ∀ p, c.pre = some p → ∀ a ∈ p.assignment, ¬ AssignSubstitutes a)
    (hw : ∀ t ∈ c.name :: (c.suffix.map Suffix.word).getD [], ¬ Substitutes t) (s : Sh) :
    expandSubshells w rec c s = (.ok c, s) := by
  obtain ⟨pre, name, suffix⟩ := c
  unfold expandSubshells
  have e1 : substPrefix w rec pre s = (.ok pre, s) := by
    cases pre with
    | none => rfl
    | some p =>
      unfold substPrefix
      dsimp only
      rw [run_bind_ok (eachM_pure (g := id) p.assignment fun a ha => substAssign_id w rec (hp p rfl a ha) s), List.map_id]
      rfl
  rw [run_bind_ok e1, run_bind_ok (substWord_id w rec (hw _ (by simp)) s)]
  cases suffix with
  | none => rfl
  | some sf =>
    dsimp only
    rw [run_bind_ok (eachM_pure (g := id) sf.word fun a ha => substWord_id w rec (hw a (by simp [ha])) s), List.map_id]
    rfl

theorem eachM_ok {f : Str → M Str} (ws : List Str) : ∀ {s s' : Sh} {vs}, eachM f ws s = (.ok vs, s') →
    vs.length = ws.length ∧ ∀ (i : Nat) w, ws[i]? = some w → (∀ s, f w s = (.ok w, s)) → vs[i]? = some w := by
  induction ws with
  | nil => intro s s' vs h; cases h; exact ⟨rfl, fun i w h => by simp at h⟩
  | cons a ws ih =>
    intro s s' vs h
    unfold eachM at h
    obtain ⟨b, s1, h1, h⟩ := bind_ok_iff.1 h
    obtain ⟨bs, s2, h2, h⟩ := bind_ok_iff.1 h
    cases h
    obtain ⟨hl, hi⟩ := ih h2
    refine ⟨by simp [hl], fun i w hw hf => ?_⟩
    cases i with
    | zero =>
      cases (by simpa using hw : a = w)
      rw [hf s] at h1
      cases h1
      rfl
    | succ i => exact hi i w (by simpa using hw) hf

/-- C134: whatever the substitutions give, a command keeps its redirections and the number of its words, so that each
substitution becomes one word; the words that are no substitutions stay as they are, each in its place.  (Missing: that
a substitution is replaced by its output, which fails in assignments, see `C134_counterexample`.) -/
theorem C134_places_partial (w : World) (rec : List AndOr → M Int) (c c' : SimpleCommand) (s s' : Sh)
    (h : expandSubshells w rec c s = (.ok c', s')) :
    (¬ Substitutes c.name → c'.name = c.name) ∧
    (c.suffix = none ↔ c'.suffix = none) ∧
    (∀ sf sf', c.suffix = some sf → c'.suffix = some sf' → sf'.ioRedirect = sf.ioRedirect ∧ sf'.word.length = sf.word.length ∧
      ∀ (i : Nat) t, sf.word[i]? = some t → ¬ Substitutes t → sf'.word[i]? = some t) ∧
    (c.pre = none ↔ c'.pre = none) ∧
    (∀ p p', c.pre = some p → c'.pre = some p' → p'.ioRedirect = p.ioRedirect ∧ p'.assignment.length = p.assignment.length ∧
      ∀ (i : Nat) t, p.assignment[i]? = some t → ¬ AssignSubstitutes t → p'.assignment[i]? = some t) := by
  obtain ⟨pre, name, suffix⟩ := c
  unfold expandSubshells at h
  obtain ⟨pre', s1, h1, h⟩ := bind_ok_iff.1 h
  obtain ⟨name', s2, h2, h⟩ := bind_ok_iff.1 h
  have hn : ¬ Substitutes name → name' = name := by
    intro hn
    rw [substWord_id w rec hn] at h2
    cases h2
    rfl
  have hp : (pre = none ↔ pre' = none) ∧
      (∀ p p', pre = some p → pre' = some p' → p'.ioRedirect = p.ioRedirect ∧ p'.assignment.length = p.assignment.length ∧
        ∀ (i : Nat) t, p.assignment[i]? = some t → ¬ AssignSubstitutes t → p'.assignment[i]? = some t) := by
    cases pre with
    | none => cases h1; exact ⟨by simp, fun _ _ h => nomatch h⟩
    | some p =>
      unfold substPrefix at h1
      obtain ⟨as, s3, h3, h1⟩ := bind_ok_iff.1 h1
      cases h1
      obtain ⟨hl, hi⟩ := eachM_ok _ h3
      refine ⟨by simp, fun q q' hq hq' => ?_⟩
      cases hq
      cases hq'
      exact ⟨rfl, hl, fun i t ht hs => hi i t ht (substAssign_id w rec hs)⟩
  cases suffix with
  | none =>
    cases h
    exact ⟨hn, by simp, (fun _ _ h => nomatch h), hp⟩
  | some sf =>
    dsimp only at h
    obtain ⟨ws, s3, h3, h⟩ := bind_ok_iff.1 h
    cases h
    obtain ⟨hl, hi⟩ := eachM_ok _ h3
    refine ⟨hn, by simp, fun q q' hq hq' => ?_, hp⟩
    cases hq
    cases hq'
    exact ⟨rfl, hl, fun i t ht hs => hi i t ht (substWord_id w rec hs)⟩

/-- A substitution becomes one word, whatever blanks there are in its output. -/
example :
    (match expandSubshells (demoWorld []) (evalFuel (demoWorld []) 5) ⟨none, cs!"ls", some ⟨[], [cs!"$(echo a b)", cs!"c"]⟩⟩ (demoShell [])
      with
      | (.ok c, _) => c.words
      | _ => []) = [cs!"a b", cs!"c"] := by decide +kernel

/-- C134 fails: in an assignment only the text up to the next `=` is taken for the substitution. -/
theorem C134_counterexample :
    (match substAssign (demoWorld []) (evalFuel (demoWorld []) 5) (cs!"X=$(echo a=b)") (demoShell []) with
      | (.ok t, _) => some t
      | _ => none) = some (cs!"X=") := by decide +kernel

/-! ## C135 -/

theorem takeUntilTwice_eq (input : Str) (start : Nat) (term : Char → Bool) (rest : Str) :
    ∀ fuel pos stop, rest.length + 3 ≤ fuel →
      takeUntilTwice input start term fuel rest pos stop 0 = takeUntil input start term rest pos stop := by
  induction rest with
  | nil => intro fuel pos stop _; cases fuel <;> rfl
  | cons c cs ih =>
    intro fuel pos stop h
    obtain ⟨m, rfl⟩ : ∃ m, fuel = m + 1 + 1 + 1 := ⟨fuel - 3, by simp at h; omega⟩
    unfold takeUntilTwice takeUntil
    rw [if_neg (by decide)]
    by_cases ht : term c = true
    · rw [if_pos ht, if_pos ht]
      unfold takeUntilTwice
      rw [if_neg (by decide), if_pos ht]
      unfold takeUntilTwice
      rw [if_pos rfl]
    · rw [if_neg ht, if_neg ht]
      exact ih _ _ _ (by simp at h; omega)

/-- C135, as far as it holds: a text without the character is read to its end.  (Missing: texts with it, see below.) -/
theorem C135_none_partial (input : Str) (start : Nat) (term : Char → Bool) (rest : Str) (pos stop fuel : Nat)
    (hr : rest ≠ []) (hn : ∀ c ∈ rest, term c = false) (h : rest.length + 3 ≤ fuel) :
    takeUntilTwice input start term fuel rest pos stop 0 =
      (sliceB input start (pos + blen rest), pos + blen rest, [], pos + blen rest) := by
  rw [takeUntilTwice_eq input start term rest fuel pos stop h]
  clear h
  induction rest generalizing pos stop with
  | nil => exact absurd rfl hr
  | cons c cs ih =>
    unfold takeUntil
    rw [if_neg (by simp [hn c List.mem_cons_self])]
    cases cs with
    | nil => rfl
    | cons d cs =>
      rw [ih _ _ (by simp) fun c hc => hn c (List.mem_cons_of_mem _ hc)]
      simp only [blen, Nat.add_assoc]

/-- C135 fails for every text: what is meant to read up to the second of two characters stops before the first, as
`take_until` does. -/
theorem C135_counterexample (input : Str) (start : Nat) (term : Char → Bool) (rest : Str) (pos stop fuel : Nat)
    (h : rest.length + 3 ≤ fuel) :
    takeUntilTwice input start term fuel rest pos stop 0 = takeUntil input start term rest pos stop :=
  takeUntilTwice_eq input start term rest fuel pos stop h

end Rsh
