import Verif.Model.Lexer

/-!
# Lemmas about the lexer: position-free scanning
-/

namespace Rsh

/-! ## Byte offsets and slices -/

theorem blen_append (a b : Str) : blen (a ++ b) = blen a + blen b := by
  induction a with
  | nil => simp [blen]
  | cons c cs ih => simp [blen, ih, Nat.add_assoc]

theorem utf8Size_pos (c : Char) : 0 < c.utf8Size := Char.utf8Size_pos c

theorem dropB_append (a b : Str) : dropB (blen a) (a ++ b) = some b := by
  induction a with
  | nil => cases b <;> simp [blen, dropB]
  | cons c cs ih =>
    have hp := utf8Size_pos c
    have : blen (c :: cs) = (c.utf8Size + blen cs - 1) + 1 := by simp only [blen]; omega
    rw [this, List.cons_append, dropB, if_pos (by omega)]
    rw [show c.utf8Size + blen cs - 1 + 1 - c.utf8Size = blen cs by omega, ih]

theorem takeB_append (a b : Str) : takeB (blen a) (a ++ b) = some a := by
  induction a with
  | nil => cases b <;> simp [blen, takeB]
  | cons c cs ih =>
    have hp := utf8Size_pos c
    have : blen (c :: cs) = (c.utf8Size + blen cs - 1) + 1 := by simp only [blen]; omega
    rw [this, List.cons_append, takeB, if_pos (by omega)]
    rw [show c.utf8Size + blen cs - 1 + 1 - c.utf8Size = blen cs by omega, ih]
    rfl

theorem sliceB_append (a b c : Str) : sliceB (a ++ (b ++ c)) (blen a) (blen a + blen b) = some b := by
  unfold sliceB
  rw [if_pos (by omega), dropB_append]
  simp [takeB_append]

/-! ## The take functions -/

theorem takeUntil_eq (pre mid : Str) (term : Char → Bool) (rest : Str) :
    takeUntil (pre ++ (mid ++ rest)) (blen pre) term rest (blen pre + blen mid) (blen pre + blen mid)
      = (some (mid ++ rest.takeWhile (fun c => !term c)),
         blen pre + blen (mid ++ rest.takeWhile (fun c => !term c)),
         rest.dropWhile (fun c => !term c),
         blen pre + blen (mid ++ rest.takeWhile (fun c => !term c))) := by
  induction rest generalizing mid with
  | nil => simp [takeUntil, ← sliceB_append pre mid []]
  | cons c cs ih =>
    unfold takeUntil
    by_cases h : term c
    · simp [h, sliceB_append pre mid (c :: cs)]
    · have := ih (mid ++ [c])
      simp only [blen_append, List.append_assoc, List.cons_append, List.nil_append, blen,
        Nat.add_zero] at this
      simp [h, Nat.add_assoc, this, blen_append, blen]

theorem takeUntilAlt_eq (pre mid : Str) (d : Char) (rest : Str) :
    takeUntilAlt (pre ++ (mid ++ rest)) (blen pre) (fun c => c = d) rest
        (blen pre + blen mid) (blen pre + blen mid)
      = (some (mid ++ (rest.takeWhile (· ≠ d) ++ (rest.dropWhile (· ≠ d)).take 1)),
         blen pre + blen (mid ++ (rest.takeWhile (· ≠ d) ++ (rest.dropWhile (· ≠ d)).take 1)),
         (rest.dropWhile (· ≠ d)).drop 1,
         blen pre + blen (mid ++ (rest.takeWhile (· ≠ d) ++ (rest.dropWhile (· ≠ d)).take 1))) := by
  induction rest generalizing mid with
  | nil => simp [takeUntilAlt, ← sliceB_append pre mid []]
  | cons c cs ih =>
    unfold takeUntilAlt
    by_cases h : c = d
    · subst h
      have := sliceB_append pre (mid ++ [c]) cs
      simp only [blen_append, List.append_assoc, List.cons_append, List.nil_append, blen,
        Nat.add_zero] at this
      simp [Nat.add_assoc, this, blen_append, blen]
    · have := ih (mid ++ [c])
      simp only [blen_append, List.append_assoc, List.cons_append, List.nil_append, blen,
        Nat.add_zero] at this
      simp [h, Nat.add_assoc, this, blen_append, blen]

theorem skipNewlines_eq (rest : Str) (pos : Nat) :
    skipNewlines rest pos
      = (rest.dropWhile (· = '\n'), pos + blen (rest.takeWhile (· = '\n'))) := by
  induction rest generalizing pos with
  | nil => simp [skipNewlines, blen]
  | cons c cs ih =>
    by_cases h : c = '\n'
    · subst h
      have : Char.utf8Size '\n' = 1 := by decide
      simp [skipNewlines, ih, blen, this, Nat.add_assoc]
    · unfold skipNewlines
      split
      · rename_i heq; simp_all
      · simp [h, blen]

theorem skipComment_eq (rest : Str) (pos : Nat) :
    skipComment rest pos
      = (rest.dropWhile (· ≠ '\n'), pos + blen (rest.takeWhile (· ≠ '\n'))) := by
  induction rest generalizing pos with
  | nil => simp [skipComment, blen]
  | cons c cs ih =>
    unfold skipComment
    by_cases h : c = '\n'
    · simp [h, blen]
    · simp [h, ih, blen, Nat.add_assoc]

/-! ## Position-free scanning -/

/-- What one call of the iterator does with the remaining text: skipped text, the text of the
token, the token, the length of the reported span, the text after it. -/
inductive Scan where
  | done
  | tok (skip raw : Str) (t : Token) (span : Nat) (rest : Str)
  | bad (skip : Str) (c : Char) (rest : Str)
deriving DecidableEq

/-- Prefix the skipped text. -/
def Scan.skipping (s : Str) : Scan → Scan
  | .done => .done
  | .tok k r t n x => .tok (s ++ k) r t n x
  | .bad k c x => .bad (s ++ k) c x

/-- A delimited token. -/
def scanDelim (c d : Char) (cs : Str) : Scan :=
  let raw := c :: (cs.takeWhile (· ≠ d) ++ (cs.dropWhile (· ≠ d)).take 1)
  .tok [] raw (.word raw) (blen raw) ((cs.dropWhile (· ≠ d)).drop 1)

/-- A word token. -/
def scanWord (c : Char) (cs : Str) : Scan :=
  let raw := c :: cs.takeWhile isWordContinue
  .tok [] raw (wordToken (cs.dropWhile isWordContinue).head? raw) (blen raw)
    (cs.dropWhile isWordContinue)

/-- A one- or two-character operator. -/
def scanPair (c : Char) (alts : List (Char × Token)) (single : Token) : Str → Scan
  | d :: cs =>
    match alts.lookup d with
    | some t => .tok [] [c, d] t c.utf8Size cs
    | none => .tok [] [c] single c.utf8Size (d :: cs)
  | [] => .tok [] [c] single c.utf8Size []

/-- `Lexer::next` on the remaining text. -/
def scan : Nat → Str → Scan
  | 0, _ => .done
  | _ + 1, [] => .done
  | n + 1, c :: cs =>
    if c = '\n' then
      .tok [] (c :: cs.takeWhile (· = '\n')) .newlineList c.utf8Size (cs.dropWhile (· = '\n'))
    else if c = ';' then .tok [] [c] .semi c.utf8Size cs
    else if c = '|' then scanPair c [('|', .or)] .pipe cs
    else if c = '&' then scanPair c [('&', .and)] .amp cs
    else if c = '`' then scanDelim c '`' cs
    else if c = '$' then
      match cs.head? with
      | some '(' => scanDelim c ')' cs
      | some '{' => .tok [] [c] .dollar c.utf8Size cs
      | _ => scanWord c cs
    else if c = '#' then
      (scan n (cs.dropWhile (· ≠ '\n'))).skipping (c :: cs.takeWhile (· ≠ '\n'))
    else if c = '(' then .tok [] [c] .lparen c.utf8Size cs
    else if c = ')' then .tok [] [c] .rparen c.utf8Size cs
    else if c = '{' then .tok [] [c] .lbrace c.utf8Size cs
    else if c = '}' then .tok [] [c] .rbrace c.utf8Size cs
    else if c = '>' then scanPair c [('>', .dgreat), ('&', .greatAnd)] .great cs
    else if c = '<' then scanPair c [('<', .dless), ('&', .lessAnd)] .less cs
    else if c = '=' then .tok [] [c] .eq c.utf8Size cs
    else if c = '"' then scanDelim c '"' cs
    else if c = '\'' then scanDelim c '\'' cs
    else if c = '!' then .tok [] [c] .bang c.utf8Size cs
    else if isWordStart c then scanWord c cs
    else if isWs c then (scan n cs).skipping [c]
    else .bad [] c cs

/-- A lexer that has consumed `pre` and has `rest` left. -/
def lexerAt (pre rest : Str) : Lexer :=
  { sendEof := false, input := pre ++ rest, rest, pos := blen pre }

/-- What `next` yields, in terms of `scan`. -/
def scanOut (pre rest : Str) : Scan → Option Item × Lexer
  | .done => (some (.tok 0 .eof 0), { lexerAt (pre ++ rest) [] with sendEof := true })
  | .tok k raw t n x =>
    (some (.tok (blen (pre ++ k)) t (blen (pre ++ k) + n)), lexerAt (pre ++ k ++ raw) x)
  | .bad k c x =>
    (some (.err (blen (pre ++ k)) c (blen (pre ++ k) + c.utf8Size)), lexerAt (pre ++ k ++ [c]) x)

theorem scanOut_skipping (pre k rest : Str) (sc : Scan) :
    scanOut pre (k ++ rest) (sc.skipping k) = scanOut (pre ++ k) rest sc := by
  cases sc <;> simp [Scan.skipping, scanOut, lexerAt]

theorem lexWord_eq (pre : Str) (c : Char) (cs : Str) :
    lexWord (lexerAt (pre ++ [c]) cs) (blen pre) (blen pre + c.utf8Size)
      = scanOut pre (c :: cs) (scanWord c cs) := by
  have h := takeUntil_eq pre [c] (fun c => !isWordContinue c) cs
  have hb : blen [c] = c.utf8Size := by simp [blen]
  have hw : (fun c => !!isWordContinue c) = isWordContinue := by funext c; simp
  rw [hb] at h
  simp only [hw] at h
  simp only [lexWord, lexerAt, blen_append, hb, List.append_assoc, h]
  simp [mkItem, scanOut, scanWord, lexerAt, blen_append, blen]

theorem lexDelim_eq (pre : Str) (c d : Char) (cs : Str) :
    lexDelim (lexerAt (pre ++ [c]) cs) d (blen pre) (blen pre + c.utf8Size)
      = scanOut pre (c :: cs) (scanDelim c d cs) := by
  have h := takeUntilAlt_eq pre [c] d cs
  have hb : blen [c] = c.utf8Size := by simp [blen]
  have h1 : (cs.takeWhile (· ≠ d) ++ ((cs.dropWhile (· ≠ d)).take 1 ++ (cs.dropWhile (· ≠ d)).drop 1)) = cs := by
    rw [List.take_append_drop, List.takeWhile_append_dropWhile]
  rw [hb] at h
  simp only [lexDelim, lexerAt, blen_append, hb, List.append_assoc, h]
  simp only [mkItem, scanOut, scanDelim, lexerAt, blen_append, blen, List.append_nil,
    List.cons_append, List.nil_append, List.append_assoc]
  rw [h1]

theorem lexPair_eq (pre : Str) (c : Char) (cs : Str) (alts : List (Char × Token)) (t : Token) :
    lexPair (lexerAt (pre ++ [c]) cs) (blen pre) (blen pre + c.utf8Size) alts t
      = scanOut pre (c :: cs) (scanPair c alts t cs) := by
  unfold lexPair scanPair
  cases cs with
  | nil => simp [lexerAt, scanOut, blen_append, blen]
  | cons d ds =>
    cases h : alts.lookup d <;>
      simp [h, scanOut, lexerAt, blen_append, blen, Nat.add_assoc]

theorem nextAux_scan (n : Nat) (pre rest : Str) (hn : rest.length ≤ n) :
    nextAux (n + 1) (lexerAt pre rest) = scanOut pre rest (scan (n + 1) rest) := by
  induction n generalizing pre rest with
  | zero =>
    have : rest = [] := List.length_eq_zero_iff.mp (by omega)
    subst this
    simp [nextAux, scan, lexerAt, scanOut]
  | succ n ih =>
    cases rest with
    | nil => simp [nextAux, scan, lexerAt, scanOut]
    | cons c cs =>
      have hlx : Lexer.mk false (pre ++ c :: cs) cs (blen pre + c.utf8Size)
          = lexerAt (pre ++ [c]) cs := by
        simp [lexerAt, blen_append, blen]
      rw [nextAux, scan]
      generalize hL : lexerAt (pre ++ [c]) cs = L at hlx
      dsimp only [lexerAt]
      rw [hlx]
      subst hL
      have hs : ∀ t, (some (Item.tok (blen pre) t (blen pre + c.utf8Size)),
          lexerAt (pre ++ [c]) cs) = scanOut pre (c :: cs) (.tok [] [c] t c.utf8Size cs) := by
        intro t; simp [scanOut]
      by_cases h : c = '\n'
      · rw [if_pos h, if_pos h]
        subst h
        simp [skipNewlines_eq, scanOut, lexerAt, blen_append, blen, Nat.add_assoc]
      rw [if_neg h, if_neg h]; clear h
      by_cases h : c = ';'
      · rw [if_pos h, if_pos h]
        exact hs _
      rw [if_neg h, if_neg h]; clear h
      by_cases h : c = '|'
      · rw [if_pos h, if_pos h]
        exact lexPair_eq ..
      rw [if_neg h, if_neg h]; clear h
      by_cases h : c = '&'
      · rw [if_pos h, if_pos h]
        exact lexPair_eq ..
      rw [if_neg h, if_neg h]; clear h
      by_cases h : c = '`'
      · rw [if_pos h, if_pos h]
        exact lexDelim_eq ..
      rw [if_neg h, if_neg h]; clear h
      by_cases h : c = '$'
      · rw [if_pos h, if_pos h]
        have hd := lexDelim_eq pre c ')' cs
        have hw := lexWord_eq pre c cs
        generalize cs.head? = o
        split
        · exact hd
        · exact hs _
        · split
          · simp_all
          · simp_all
          · exact hw
      rw [if_neg h, if_neg h]; clear h
      by_cases h : c = '#'
      · rw [if_pos h, if_pos h]
        have := ih (pre ++ (c :: cs.takeWhile (· ≠ '\n'))) (cs.dropWhile (· ≠ '\n')) (by
          have := (List.dropWhile_sublist (l := cs) (fun x => decide (x ≠ '\n'))).length_le
          simp at hn ⊢; simp at this; omega)
        rw [← scanOut_skipping] at this
        simp only [List.cons_append, List.takeWhile_append_dropWhile] at this
        rw [← this, skipComment_eq]
        simp [lexerAt, blen_append, blen, Nat.add_assoc]
      rw [if_neg h, if_neg h]; clear h
      by_cases h : c = '('
      · rw [if_pos h, if_pos h]
        exact hs _
      rw [if_neg h, if_neg h]; clear h
      by_cases h : c = ')'
      · rw [if_pos h, if_pos h]
        exact hs _
      rw [if_neg h, if_neg h]; clear h
      by_cases h : c = '{'
      · rw [if_pos h, if_pos h]
        exact hs _
      rw [if_neg h, if_neg h]; clear h
      by_cases h : c = '}'
      · rw [if_pos h, if_pos h]
        exact hs _
      rw [if_neg h, if_neg h]; clear h
      by_cases h : c = '>'
      · rw [if_pos h, if_pos h]
        exact lexPair_eq ..
      rw [if_neg h, if_neg h]; clear h
      by_cases h : c = '<'
      · rw [if_pos h, if_pos h]
        exact lexPair_eq ..
      rw [if_neg h, if_neg h]; clear h
      by_cases h : c = '='
      · rw [if_pos h, if_pos h]
        exact hs _
      rw [if_neg h, if_neg h]; clear h
      by_cases h : c = '"'
      · rw [if_pos h, if_pos h]
        exact lexDelim_eq ..
      rw [if_neg h, if_neg h]; clear h
      by_cases h : c = '\''
      · rw [if_pos h, if_pos h]
        exact lexDelim_eq ..
      rw [if_neg h, if_neg h]; clear h
      by_cases h : c = '!'
      · rw [if_pos h, if_pos h]
        exact hs _
      rw [if_neg h, if_neg h]; clear h
      by_cases h : isWordStart c
      · rw [if_pos h, if_pos h]
        exact lexWord_eq ..
      rw [if_neg h, if_neg h]; clear h
      by_cases h : isWs c
      · rw [if_pos h, if_pos h]
        have := ih (pre ++ [c]) cs (by simp at hn; omega)
        rw [← scanOut_skipping] at this
        exact this
      rw [if_neg h, if_neg h]; clear h
      simp [scanOut]

/-! ## Facts about `scan` -/

/-- What every scan result satisfies. -/
def ScanOk (s : Str) : Scan → Prop
  | .done => True
  | .tok k raw t n x => s = k ++ raw ++ x ∧ t ≠ .eof ∧ 0 < n ∧ n ≤ blen raw ∧
      (∀ w, t = .word w → raw = w ∧ n = blen raw) ∧
      (∀ m, t = .number m → parseI32 raw = some m ∧ n = blen raw)
  | .bad k c x => s = k ++ c :: x ∧ c = '*'

theorem ScanOk.skipping {s : Str} {sc : Scan} (h : ScanOk s sc) (k : Str) :
    ScanOk (k ++ s) (sc.skipping k) := by
  cases sc with
  | done => trivial
  | tok k' raw t n x =>
    obtain ⟨h1, h2⟩ := h
    exact ⟨by simp [h1], h2⟩
  | bad k' c x =>
    obtain ⟨h1, h2⟩ := h
    exact ⟨by simp [h1], h2⟩

theorem scanDelim_ok (c d : Char) (cs : Str) : ScanOk (c :: cs) (scanDelim c d cs) := by
  have h1 : (cs.takeWhile (· ≠ d) ++ ((cs.dropWhile (· ≠ d)).take 1 ++ (cs.dropWhile (· ≠ d)).drop 1)) = cs := by
    rw [List.take_append_drop, List.takeWhile_append_dropWhile]
  refine ⟨?_, by simp, ?_, Nat.le_refl _, ?_, by simp⟩
  · simp only [List.nil_append, List.cons_append, List.append_assoc, h1]
  · have := utf8Size_pos c; simp only [blen]; omega
  · intro w hw; simpa using hw

theorem numOrWord_cases (look : Option Char) (w : Str) :
    numOrWord look w = .word w ∨ ∃ n, numOrWord look w = .number n ∧ parseI32 w = some n := by
  unfold numOrWord
  split
  · split
    · split
      · exact .inr ⟨_, rfl, by assumption⟩
      · exact .inl rfl
    · exact .inl rfl
  · exact .inl rfl

/-- The tokens `word` can build from a text. -/
def WTok (w : Str) (t : Token) : Prop :=
  t = .word w ∨ (∃ n, t = .number n ∧ parseI32 w = some n) ∨
  ((∀ v, t ≠ .word v) ∧ (∀ n, t ≠ .number n) ∧ t ≠ .eof)

theorem wordToken_cases (look : Option Char) (w : Str) : WTok w (wordToken look w) := by
  unfold wordToken
  iterate 12
    refine iteInduction (motive := WTok w) (fun _ => .inr (.inr (by simp))) (fun _ => ?_)
  rcases numOrWord_cases look w with h | h
  · exact .inl h
  · exact .inr (.inl h)

theorem scanWord_ok (c : Char) (cs : Str) : ScanOk (c :: cs) (scanWord c cs) := by
  have hp : 0 < blen (c :: cs.takeWhile isWordContinue) := by
    have := utf8Size_pos c; simp only [blen]; omega
  have hc := wordToken_cases (cs.dropWhile isWordContinue).head? (c :: cs.takeWhile isWordContinue)
  refine ⟨by simp [List.takeWhile_append_dropWhile], ?_, hp, Nat.le_refl _, ?_, ?_⟩
  · rcases hc with h | ⟨n, h, _⟩ | h
    · rw [h]; simp
    · rw [h]; simp
    · exact h.2.2
  · intro w hw
    rcases hc with h | ⟨n, h, _⟩ | h
    · rw [h] at hw; exact ⟨by simpa using hw, rfl⟩
    · rw [h] at hw; simp at hw
    · exact absurd hw (h.1 w)
  · intro m hm
    rcases hc with h | ⟨n, h, h'⟩ | h
    · rw [h] at hm; simp at hm
    · rw [h] at hm; exact ⟨by rw [h']; simpa using hm, rfl⟩
    · exact absurd hm (h.2.1 m)

theorem scanPair_ok (c : Char) (alts : List (Char × Token)) (t : Token) (cs : Str)
    (ha : ∀ p ∈ alts, p.2 ≠ .eof ∧ (∀ w, p.2 ≠ .word w) ∧ (∀ n, p.2 ≠ .number n))
    (ht : t ≠ .eof ∧ (∀ w, t ≠ .word w) ∧ (∀ n, t ≠ .number n)) :
    ScanOk (c :: cs) (scanPair c alts t cs) := by
  have hp := utf8Size_pos c
  cases cs with
  | nil => exact ⟨by simp, ht.1, hp, by simp [blen], fun w h => absurd h (ht.2.1 w),
      fun w h => absurd h (ht.2.2 w)⟩
  | cons d ds =>
    unfold scanPair
    cases h : alts.lookup d with
    | none =>
      simp only [h]
      exact ⟨by simp, ht.1, hp, by simp [blen], fun w h => absurd h (ht.2.1 w),
        fun w h => absurd h (ht.2.2 w)⟩
    | some t' =>
      have hm : (d, t') ∈ alts := by
        clear ha
        induction alts with
        | nil => simp at h
        | cons q qs ih =>
          obtain ⟨a, b⟩ := q
          rw [List.lookup_cons] at h
          split at h
          · rename_i heq; simp at heq h; subst heq h; exact List.mem_cons_self
          · exact List.mem_cons_of_mem _ (ih h)
      have := ha _ hm
      simp only [h]
      exact ⟨by simp, this.1, hp, by simp [blen], fun w h => absurd h (this.2.1 w),
        fun w h => absurd h (this.2.2 w)⟩

theorem scan_ok (n : Nat) (s : Str) : ScanOk s (scan n s) := by
  induction n generalizing s with
  | zero => simp [scan, ScanOk]
  | succ n ih =>
    cases s with
    | nil => simp [scan, ScanOk]
    | cons c cs =>
      have hp := utf8Size_pos c
      have one : ∀ t : Token, t ≠ .eof → (∀ w, t ≠ .word w) → (∀ n, t ≠ .number n) →
          ScanOk (c :: cs) (.tok [] [c] t c.utf8Size cs) :=
        fun t h1 h2 h3 => ⟨by simp, h1, hp, by simp [blen], fun w h => absurd h (h2 w),
          fun w h => absurd h (h3 w)⟩
      rw [scan]
      by_cases h_nl : c = '\n'
      · rw [if_pos h_nl]
        exact ⟨by simp [List.takeWhile_append_dropWhile], by simp, hp, by simp [blen], by simp, by simp⟩
      rw [if_neg h_nl]
      by_cases g1 : c = ';'
      · rw [if_pos g1]
        apply one <;> simp
      rw [if_neg g1]
      by_cases g2 : c = '|'
      · rw [if_pos g2]
        apply scanPair_ok <;> simp
      rw [if_neg g2]
      by_cases g3 : c = '&'
      · rw [if_pos g3]
        apply scanPair_ok <;> simp
      rw [if_neg g3]
      by_cases g4 : c = '`'
      · rw [if_pos g4]
        exact scanDelim_ok ..
      rw [if_neg g4]
      by_cases g5 : c = '$'
      · rw [if_pos g5]
        split
        · exact scanDelim_ok ..
        · apply one <;> simp
        · exact scanWord_ok ..
      rw [if_neg g5]
      by_cases g6 : c = '#'
      · rw [if_pos g6]
        have := (ih (cs.dropWhile (· ≠ '\n'))).skipping (c :: cs.takeWhile (· ≠ '\n'))
        simpa only [List.cons_append, List.takeWhile_append_dropWhile] using this
      rw [if_neg g6]
      by_cases g7 : c = '('
      · rw [if_pos g7]
        apply one <;> simp
      rw [if_neg g7]
      by_cases g8 : c = ')'
      · rw [if_pos g8]
        apply one <;> simp
      rw [if_neg g8]
      by_cases g9 : c = '{'
      · rw [if_pos g9]
        apply one <;> simp
      rw [if_neg g9]
      by_cases g10 : c = '}'
      · rw [if_pos g10]
        apply one <;> simp
      rw [if_neg g10]
      by_cases g11 : c = '>'
      · rw [if_pos g11]
        apply scanPair_ok <;> simp
      rw [if_neg g11]
      by_cases g12 : c = '<'
      · rw [if_pos g12]
        apply scanPair_ok <;> simp
      rw [if_neg g12]
      by_cases g13 : c = '='
      · rw [if_pos g13]
        apply one <;> simp
      rw [if_neg g13]
      by_cases g14 : c = '"'
      · rw [if_pos g14]
        exact scanDelim_ok ..
      rw [if_neg g14]
      by_cases g15 : c = '\''
      · rw [if_pos g15]
        exact scanDelim_ok ..
      rw [if_neg g15]
      by_cases g16 : c = '!'
      · rw [if_pos g16]
        apply one <;> simp
      rw [if_neg g16]
      by_cases h1 : isWordStart c
      · rw [if_pos h1]
        exact scanWord_ok ..
      rw [if_neg h1]
      by_cases h2 : isWs c
      · rw [if_pos h2]
        exact (ih cs).skipping [c]
      rw [if_neg h2]
      refine ⟨by simp, ?_⟩
      have hws : ¬ isWordContinue c := fun h => h1 (by unfold isWordStart; split <;> simp [h])
      unfold isWordContinue at hws
      split at hws
      · rename_i hor
        simp_all
      · simp [h2] at hws


theorem length_dropWhile_le (p : Char → Bool) (s : Str) : (s.dropWhile p).length ≤ s.length :=
  (List.dropWhile_sublist p).length_le

theorem scan_fuel (n m : Nat) (s : Str) (hn : s.length < n) (hm : s.length < m) :
    scan n s = scan m s := by
  induction n generalizing m s with
  | zero => omega
  | succ n ih =>
    cases m with
    | zero => omega
    | succ m =>
      cases s with
      | nil => simp [scan]
      | cons c cs =>
        simp only [List.length_cons] at hn hm
        have h1 := ih m cs (by omega) (by omega)
        have hl := length_dropWhile_le (· ≠ '\n') cs
        have h2 := ih m (cs.dropWhile (· ≠ '\n')) (by omega) (by omega)
        simp only [scan, h1, h2]

/-- `scan` with enough fuel. -/
def scanT (s : Str) : Scan := scan (s.length + 1) s

theorem scanT_ok (s : Str) : ScanOk s (scanT s) := scan_ok _ _

theorem next_scanT (pre rest : Str) :
    (lexerAt pre rest).next = scanOut pre rest (scanT rest) := nextAux_scan _ pre rest (Nat.le_refl _)

theorem next_eof (lx : Lexer) (h1 : lx.rest = []) (h2 : lx.sendEof = true) : lx.next = (none, lx) := by
  unfold Lexer.next
  rw [nextAux, h1]
  simp [h2]

theorem itemsAux_eof (n : Nat) (lx : Lexer) (h1 : lx.rest = []) (h2 : lx.sendEof = true) :
    itemsAux n lx = [] := by
  cases n with
  | zero => rfl
  | succ n => simp [itemsAux, next_eof lx h1 h2]

/-! ## Token lists -/

/-- Tokens of a text, position-free; `n` bounds the number of tokens. -/
def toksN : Nat → Str → Option (List Token)
  | 0, _ => none
  | n + 1, s =>
    match scanT s with
    | .done => some [.eof]
    | .tok _ _ t _ x => (toksN n x).map (t :: ·)
    | .bad .. => none

theorem raw_pos {n : Nat} {raw : Str} (h : 0 < n) (h' : n ≤ blen raw) : 0 < raw.length := by
  cases raw with
  | nil => simp [blen] at h'; omega
  | cons => simp

theorem toksN_fuel (n m : Nat) (s : Str) (hn : s.length < n) (hm : s.length < m) :
    toksN n s = toksN m s := by
  induction n generalizing m s with
  | zero => omega
  | succ n ih =>
    cases m with
    | zero => omega
    | succ m =>
      unfold toksN
      have hok := scanT_ok s
      cases h : scanT s with
      | done => rfl
      | bad => rfl
      | tok k raw t j x =>
        rw [h] at hok
        obtain ⟨h1, _, h3, h4, _⟩ := hok
        have hr := raw_pos h3 h4
        have hl : s.length = k.length + raw.length + x.length := by rw [h1]; simp [Nat.add_assoc]
        simp only
        rw [ih m x (by omega) (by omega)]

/-- Tokens of a text. -/
def toks (s : Str) : Option (List Token) := toksN (s.length + 1) s

theorem toks_eq (s : Str) : toks s =
    match scanT s with
    | .done => some [.eof]
    | .tok _ _ t _ x => (toks x).map (t :: ·)
    | .bad .. => none := by
  unfold toks
  rw [toksN]
  have hok := scanT_ok s
  cases h : scanT s with
  | done => rfl
  | bad => rfl
  | tok k raw t j x =>
    rw [h] at hok
    obtain ⟨h1, _, h3, h4, _⟩ := hok
    have hr := raw_pos h3 h4
    have hl : s.length = k.length + raw.length + x.length := by rw [h1]; simp [Nat.add_assoc]
    simp only
    rw [toksN_fuel s.length (x.length + 1) x (by omega) (by omega)]

theorem tokensOf_items (n : Nat) (pre rest : Str) (hn : rest.length + 1 < n) :
    tokensOf (itemsAux n (lexerAt pre rest)) = toks rest := by
  induction n generalizing pre rest with
  | zero => omega
  | succ n ih =>
    rw [itemsAux, next_scanT, toks_eq]
    have hok := scanT_ok rest
    cases h : scanT rest with
    | done =>
      simp only [scanOut]
      rw [itemsAux_eof _ _ rfl rfl]
      rfl
    | bad k c x => simp [scanOut, tokensOf]
    | tok k raw t j x =>
      rw [h] at hok
      obtain ⟨h1, _, h3, h4, _⟩ := hok
      have hr := raw_pos h3 h4
      have hl : rest.length = k.length + raw.length + x.length := by rw [h1]; simp [Nat.add_assoc]
      simp only [scanOut, tokensOf]
      rw [ih _ x (by omega)]

theorem lexer_new (s : Str) : Lexer.new s = lexerAt [] s := by
  simp [Lexer.new, lexerAt, blen]

theorem lex_toks (s : Str) : lex s = toks s := by
  unfold lex items
  rw [lexer_new]
  exact tokensOf_items _ [] s (by omega)

/-! ## One equation per kind of token -/

theorem toks_nil : toks [] = some [.eof] := by
  rw [toks_eq]; rfl

theorem toks_of_tok {s : Str} {k raw t n x} (h : scanT s = .tok k raw t n x) :
    toks s = (toks x).map (t :: ·) := by
  rw [toks_eq, h]

theorem toks_of_bad {s : Str} {k c x} (h : scanT s = .bad k c x) : toks s = none := by
  rw [toks_eq, h]

theorem toks_skipping {s s' : Str} {k} (h : scanT s = (scanT s').skipping k) : toks s = toks s' := by
  rw [toks_eq, toks_eq, h]
  cases scanT s' <;> rfl

theorem isWs_not_wordContinue {c : Char} (h : isWs c = true) : isWordContinue c = false := by
  unfold isWordContinue
  split
  · rfl
  · simp [h]

theorem isWs_ne {c d : Char} (h : isWs c = true) (hd : isWs d = false) : c ≠ d := by
  rintro rfl; simp [h] at hd

theorem isWs_not_wordStart {c : Char} (h : isWs c = true) : isWordStart c = false := by
  unfold isWordStart
  rw [if_neg, isWs_not_wordContinue h]
  intro hor
  have key : (0x41 ≤ c.toNat ∧ c.toNat ≤ 0x7A) ∨ (0x30 ≤ c.toNat ∧ c.toNat ≤ 0x39) ∨
      c.toNat = 0x22 ∨ c.toNat = 0x27 := by
    rcases hor with h | h | h | h | h | h
    · have h1 : 'a'.toNat ≤ c.toNat := h.1
      have h2 : c.toNat ≤ 'z'.toNat := h.2
      have e1 : 'a'.toNat = 0x61 := rfl
      have e2 : 'z'.toNat = 0x7A := rfl
      omega
    · have h1 : 'A'.toNat ≤ c.toNat := h.1
      have h2 : c.toNat ≤ 'Z'.toNat := h.2
      have e1 : 'A'.toNat = 0x41 := rfl
      have e2 : 'Z'.toNat = 0x5A := rfl
      omega
    · subst h; left; decide
    · have h1 : '0'.toNat ≤ c.toNat := h.1
      have h2 : c.toNat ≤ '9'.toNat := h.2
      have e1 : '0'.toNat = 0x30 := rfl
      have e2 : '9'.toNat = 0x39 := rfl
      omega
    · subst h; right; right; left; decide
    · subst h; right; right; right; decide
  simp only [isWs, Bool.or_eq_true, Bool.and_eq_true, decide_eq_true_eq, beq_iff_eq] at h
  omega

theorem scanT_blank (c : Char) (cs : Str) (h : isWs c = true) (hn : c ≠ '\n') :
    scanT (c :: cs) = (scanT cs).skipping [c] := by
  unfold scanT
  rw [List.length_cons, scan]
  rw [if_neg hn, if_neg (isWs_ne h (by decide)), if_neg (isWs_ne h (by decide)),
    if_neg (isWs_ne h (by decide)), if_neg (isWs_ne h (by decide)),
    if_neg (isWs_ne h (by decide)), if_neg (isWs_ne h (by decide)),
    if_neg (isWs_ne h (by decide)), if_neg (isWs_ne h (by decide)),
    if_neg (isWs_ne h (by decide)), if_neg (isWs_ne h (by decide)),
    if_neg (isWs_ne h (by decide)), if_neg (isWs_ne h (by decide)),
    if_neg (isWs_ne h (by decide)), if_neg (isWs_ne h (by decide)),
    if_neg (isWs_ne h (by decide)), if_neg (isWs_ne h (by decide)),
    if_neg (by simp [isWs_not_wordStart h]), if_pos h]

theorem toks_blank (c : Char) (cs : Str) (h : isWs c = true) (hn : c ≠ '\n') :
    toks (c :: cs) = toks cs := toks_skipping (scanT_blank c cs h hn)

theorem scanT_hash (cs : Str) : scanT ('#' :: cs)
    = (scanT (cs.dropWhile (· ≠ '\n'))).skipping ('#' :: cs.takeWhile (· ≠ '\n')) := by
  have hl := length_dropWhile_le (· ≠ '\n') cs
  unfold scanT
  rw [scan_fuel ((cs.dropWhile (· ≠ '\n')).length + 1) (cs.length + 1) _ (by omega) (by omega)]
  rw [List.length_cons, scan]
  simp only [Char.reduceEq, if_false, if_true]

theorem toks_hash (cs : Str) : toks ('#' :: cs) = toks (cs.dropWhile (· ≠ '\n')) :=
  toks_skipping (scanT_hash cs)


/-- Conditions under which a character starts a `Word` read by `word`: not one of the characters
the dispatch of `next` handles itself, and not white space. -/
def wordHead (c : Char) : Bool := isWordContinue c && c != '#' && c != '"' && c != '\''

theorem wordHead_start {c : Char} (h : wordHead c = true) : isWordStart c = true := by
  simp only [wordHead, Bool.and_eq_true] at h
  unfold isWordStart
  split
  · rfl
  · exact h.1.1.1

theorem isWordContinue_ne {c d : Char} (h : isWordContinue c = true) (hd : isWordContinue d = false) :
    c ≠ d := by rintro rfl; simp [h] at hd

theorem scanT_word (c : Char) (cs : Str) (h : wordHead c = true) :
    scanT (c :: cs) = scanWord c cs := by
  have hs := wordHead_start h
  simp only [wordHead, Bool.and_eq_true, bne_iff_ne, ne_eq] at h
  obtain ⟨⟨⟨h, h1⟩, h2⟩, h3⟩ := h
  have k : ∀ d, isWordContinue d = false → c ≠ d := fun d hd => isWordContinue_ne h hd
  unfold scanT
  rw [List.length_cons, scan]
  rw [if_neg (k _ (by decide)), if_neg (k _ (by decide)), if_neg (k _ (by decide)),
    if_neg (k _ (by decide)), if_neg (k _ (by decide)), if_neg (k _ (by decide)),
    if_neg h1, if_neg (k _ (by decide)), if_neg (k _ (by decide)),
    if_neg (k _ (by decide)), if_neg (k _ (by decide)), if_neg (k _ (by decide)),
    if_neg (k _ (by decide)), if_neg (k _ (by decide)), if_neg h2,
    if_neg h3, if_neg (k _ (by decide)), if_pos hs]

theorem takeWhile_append_of_all {p : Char → Bool} {a b : Str} (ha : a.all p = true)
    (hb : b.head?.all (fun c => !p c) = true) :
    (a ++ b).takeWhile p = a ∧ (a ++ b).dropWhile p = b := by
  induction a with
  | nil =>
    cases b with
    | nil => simp
    | cons c cs => simp at hb; simp [hb]
  | cons c cs ih =>
    simp only [List.all_cons, Bool.and_eq_true] at ha
    simp [ha.1, ih ha.2]

/-- The tokens of a text starting with a word. -/
theorem toks_word (w rest : Str) (hw : w ≠ []) (hh : w.head?.all wordHead = true)
    (hall : w.all isWordContinue = true)
    (hr : rest.head?.all (fun c => !isWordContinue c) = true) :
    toks (w ++ rest) = (toks rest).map (wordToken rest.head? w :: ·) := by
  cases w with
  | nil => simp at hw
  | cons c cs =>
    simp only [List.head?_cons, Option.all_some] at hh
    simp only [List.all_cons, Bool.and_eq_true] at hall
    obtain ⟨h1, h2⟩ := takeWhile_append_of_all hall.2 hr
    have := scanT_word c (cs ++ rest) hh
    simp only [scanWord, h1, h2] at this
    rw [List.cons_append, toks_of_tok this]

theorem takeWhile_ne {d : Char} {a b : Str} (h : d ∉ a) :
    (a ++ d :: b).takeWhile (· ≠ d) = a ∧ (a ++ d :: b).dropWhile (· ≠ d) = d :: b := by
  apply takeWhile_append_of_all
  · simp only [List.all_eq_true, decide_eq_true_eq]
    intro x hx he; exact h (he ▸ hx)
  · simp

theorem takeWhile_ne_all {d : Char} {a : Str} (h : d ∉ a) :
    a.takeWhile (· ≠ d) = a ∧ a.dropWhile (· ≠ d) = [] := by
  have := takeWhile_append_of_all (p := (· ≠ d)) (a := a) (b := []) (by
    simp only [List.all_eq_true, decide_eq_true_eq]
    intro x hx he; exact h (he ▸ hx)) (by simp)
  simpa using this

theorem toks_delim {c d : Char} (a b : Str) (hs : ∀ cs, scanT (c :: cs) = scanDelim c d cs)
    (h : d ∉ a) : toks (c :: (a ++ d :: b)) = (toks b).map (.word (c :: (a ++ [d])) :: ·) := by
  obtain ⟨h1, h2⟩ := takeWhile_ne (b := b) h
  have := hs (a ++ d :: b)
  simp only [scanDelim, h1, h2, List.take_succ_cons, List.take_zero, List.drop_succ_cons,
    List.drop_zero] at this
  rw [toks_of_tok this]

theorem toks_delim_open {c d : Char} (a : Str) (hs : ∀ cs, scanT (c :: cs) = scanDelim c d cs)
    (h : d ∉ a) : toks (c :: a) = some [.word (c :: a), .eof] := by
  obtain ⟨h1, h2⟩ := takeWhile_ne_all h
  have := hs a
  simp only [scanDelim, h1, h2, List.take_nil, List.drop_nil, List.append_nil] at this
  rw [toks_of_tok this, toks_nil]; rfl

theorem scanT_squote (cs : Str) : scanT ('\'' :: cs) = scanDelim '\'' '\'' cs := by
  unfold scanT
  rw [List.length_cons, scan]
  simp only [Char.reduceEq, if_false, if_true]

theorem scanT_dquote (cs : Str) : scanT ('"' :: cs) = scanDelim '"' '"' cs := by
  unfold scanT
  rw [List.length_cons, scan]
  simp only [Char.reduceEq, if_false, if_true]

theorem scanT_backtick (cs : Str) : scanT ('`' :: cs) = scanDelim '`' '`' cs := by
  unfold scanT
  rw [List.length_cons, scan]
  simp only [Char.reduceEq, if_false, if_true]

theorem scanT_dollarParen (cs : Str) : scanT ('$' :: '(' :: cs) = scanDelim '$' ')' ('(' :: cs) := by
  unfold scanT
  rw [List.length_cons, scan]
  simp only [Char.reduceEq, if_false, if_true, List.head?_cons]

/-! ## Items -/

/-- What every item of the lexer satisfies, for a source text `s`, and not starting before
`lo`. -/
def ItemFits (s : Str) (lo : Nat) : Item → Prop
  | .tok a t b => lo ≤ a ∧ a < b ∧ b ≤ blen s ∧ t ≠ .eof ∧
      (∀ w, t = .word w → sliceB s a b = some w) ∧
      (∀ n, t = .number n → ∃ w, sliceB s a b = some w ∧ parseI32 w = some n)
  | .err a c b => lo ≤ a ∧ a < b ∧ b ≤ blen s ∧ c = '*' ∧ sliceB s a b = some ['*']
  | .panic => False

/-- End offset of an item. -/
def Item.stop : Item → Nat
  | .tok _ _ b => b
  | .err _ _ b => b
  | .panic => 0

/-- Start offset of an item. -/
def Item.start : Item → Nat
  | .tok a _ _ => a
  | .err a _ _ => a
  | .panic => 0

theorem ItemFits.mono {s : Str} {lo hi : Nat} {i : Item} (h : ItemFits s hi i) (hl : lo ≤ hi) :
    ItemFits s lo i := by
  cases i with
  | tok => exact ⟨by have := h.1; omega, h.2⟩
  | err => exact ⟨by have := h.1; omega, h.2⟩
  | panic => exact h

theorem ItemFits.start_le {s : Str} {lo : Nat} {i : Item} (h : ItemFits s lo i) : lo ≤ i.start := by
  cases i with
  | tok => exact h.1
  | err => exact h.1
  | panic => exact h.elim

theorem items_fit (n : Nat) (pre rest : Str) (hn : rest.length + 1 < n) :
    ∃ l, itemsAux n (lexerAt pre rest) = l ++ [.tok 0 .eof 0] ∧ l.length ≤ rest.length ∧
      (∀ i ∈ l, ItemFits (pre ++ rest) (blen pre) i) ∧
      l.Pairwise (fun i j => i.stop ≤ j.start) := by
  induction n generalizing pre rest with
  | zero => omega
  | succ n ih =>
    rw [itemsAux, next_scanT]
    have hok := scanT_ok rest
    cases h : scanT rest with
    | done =>
      simp only [scanOut]
      rw [itemsAux_eof _ _ rfl rfl]
      exact ⟨[], by simp⟩
    | bad k c x =>
      rw [h] at hok
      obtain ⟨h1, h2⟩ := hok
      subst h2
      have hl : rest.length = k.length + 1 + x.length := by rw [h1]; simp; omega
      simp only [scanOut]
      obtain ⟨l, e, el, ef, ep⟩ := ih (pre ++ k ++ ['*']) x (by omega)
      have hall : pre ++ k ++ ['*'] ++ x = pre ++ rest := by rw [h1]; simp
      rw [hall] at ef
      have hb : blen ['*'] = Char.utf8Size '*' := by simp [blen]
      have hsz : Char.utf8Size '*' = 1 := by decide
      refine ⟨.err (blen (pre ++ k)) '*' (blen (pre ++ k) + Char.utf8Size '*') :: l,
        by rw [e]; rfl, by simp; omega, ?_, ?_⟩
      · intro i hi
        rcases List.mem_cons.mp hi with rfl | hi
        · refine ⟨by rw [blen_append]; omega, by omega, ?_, rfl, ?_⟩
          · rw [h1]; simp only [blen_append, blen]; omega
          · have := sliceB_append (pre ++ k) ['*'] x
            rw [hb] at this
            rw [← this, h1]; simp
        · exact (ef i hi).mono (by simp only [blen_append]; omega)
      · refine List.Pairwise.cons ?_ ep
        intro j hj
        have := (ef j hj).start_le
        simp only [blen_append, hb] at this
        simp only [Item.stop, blen_append]; omega
    | tok k raw t j x =>
      rw [h] at hok
      obtain ⟨h1, h2, h3, h4, h5, h6⟩ := hok
      have hr := raw_pos h3 h4
      have hl : rest.length = k.length + raw.length + x.length := by rw [h1]; simp [Nat.add_assoc]
      simp only [scanOut]
      obtain ⟨l, e, el, ef, ep⟩ := ih (pre ++ k ++ raw) x (by omega)
      have hall : pre ++ k ++ raw ++ x = pre ++ rest := by rw [h1]; simp
      rw [hall] at ef
      have hsl : sliceB (pre ++ rest) (blen (pre ++ k)) (blen (pre ++ k) + blen raw) = some raw := by
        rw [← sliceB_append (pre ++ k) raw x, h1]; simp
      refine ⟨.tok (blen (pre ++ k)) t (blen (pre ++ k) + j) :: l,
        by rw [e]; rfl, by simp; omega, ?_, ?_⟩
      · intro i hi
        rcases List.mem_cons.mp hi with rfl | hi
        · refine ⟨by rw [blen_append]; omega, by omega, ?_, h2, ?_, ?_⟩
          · rw [h1]; simp only [blen_append]; omega
          · intro w hw
            obtain ⟨e1, e2⟩ := h5 w hw
            rw [e2, hsl, e1]
          · intro m hm
            obtain ⟨e1, e2⟩ := h6 m hm
            rw [e2, hsl]
            exact ⟨raw, rfl, e1⟩
        · exact (ef i hi).mono (by simp only [blen_append]; omega)
      · refine List.Pairwise.cons ?_ ep
        intro i hi
        have := (ef i hi).start_le
        simp only [blen_append] at this
        simp only [Item.stop, blen_append]; omega

theorem items_more (n k : Nat) (pre rest : Str) (hn : rest.length + 1 < n) :
    itemsAux (n + k) (lexerAt pre rest) = itemsAux n (lexerAt pre rest) := by
  induction n generalizing pre rest with
  | zero => omega
  | succ n ih =>
    rw [show n + 1 + k = (n + k) + 1 by omega, itemsAux, itemsAux, next_scanT]
    have hok := scanT_ok rest
    cases h : scanT rest with
    | done =>
      simp only [scanOut]
      rw [itemsAux_eof _ _ rfl rfl, itemsAux_eof _ _ rfl rfl]
    | bad k' c x =>
      rw [h] at hok
      obtain ⟨h1, h2⟩ := hok
      have hl : rest.length = k'.length + 1 + x.length := by rw [h1]; simp; omega
      simp only [scanOut]
      rw [ih _ x (by omega)]
    | tok k' raw t j x =>
      rw [h] at hok
      obtain ⟨h1, h2, h3, h4, h5, h6⟩ := hok
      have hr := raw_pos h3 h4
      have hl : rest.length = k'.length + raw.length + x.length := by rw [h1]; simp [Nat.add_assoc]
      simp only [scanOut]
      rw [ih _ x (by omega)]


/-! ## Reachable lexer states -/

/-- The lexer after `k` calls of `next`. -/
def Lexer.after : Nat → Lexer → Lexer
  | 0, lx => lx
  | k + 1, lx => Lexer.after k lx.next.2

/-- All tokens a lexer state still yields. -/
def Lexer.remaining (lx : Lexer) : Option (List Token) :=
  tokensOf (itemsAux (lx.rest.length + 2) lx)

theorem after_eof (k : Nat) (lx : Lexer) (h1 : lx.rest = []) (h2 : lx.sendEof = true) :
    lx.after k = lx := by
  induction k with
  | zero => rfl
  | succ k ih => rw [Lexer.after, next_eof lx h1 h2, ih]

theorem after_lexerAt (k : Nat) (pre rest : Str) :
    (∃ a x, rest = a ++ x ∧ (lexerAt pre rest).after k = lexerAt (pre ++ a) x) ∨
    ((lexerAt pre rest).after k).rest = [] := by
  induction k generalizing pre rest with
  | zero => exact .inl ⟨[], rest, by simp [Lexer.after]⟩
  | succ k ih =>
    rw [Lexer.after, next_scanT]
    have hok := scanT_ok rest
    cases h : scanT rest with
    | done =>
      right
      simp only [scanOut]
      rw [after_eof _ _ rfl rfl]
      rfl
    | bad k' c x =>
      rw [h] at hok
      simp only [scanOut]
      rcases ih (pre ++ k' ++ [c]) x with ⟨a, y, e1, e2⟩ | e
      · exact .inl ⟨k' ++ [c] ++ a, y, by rw [hok.1, e1]; simp, by rw [e2]; simp⟩
      · exact .inr e
    | tok k' raw t j x =>
      rw [h] at hok
      simp only [scanOut]
      rcases ih (pre ++ k' ++ raw) x with ⟨a, y, e1, e2⟩ | e
      · exact .inl ⟨k' ++ raw ++ a, y, by rw [hok.1, e1]; simp, by rw [e2]; simp⟩
      · exact .inr e

theorem remaining_of_rest (input : Str) (k : Nat)
    (h : ((Lexer.new input).after k).rest ≠ []) :
    ((Lexer.new input).after k).remaining = toks ((Lexer.new input).after k).rest := by
  rw [lexer_new] at h ⊢
  rcases after_lexerAt k [] input with ⟨a, x, _, e⟩ | e
  · rw [e]
    exact tokensOf_items _ _ _ (by simp [lexerAt])
  · exact absurd e h


/-! ## Locality: a token ending before a blank does not depend on what follows -/

/-- Blank: white space other than newline. -/
def isBlank (c : Char) : Prop := isWs c = true ∧ c ≠ '\n'

/-- The text after the token. -/
def Scan.rest? : Scan → Option Str
  | .done => none
  | .tok _ _ _ _ x => some x
  | .bad _ _ x => some x

/-- Replace the text after the token. -/
def Scan.withRest (y : Str) : Scan → Scan
  | .done => .done
  | .tok k r t n _ => .tok k r t n y
  | .bad k c _ => .bad k c y

theorem rest?_skipping (k : Str) (sc : Scan) : (sc.skipping k).rest? = sc.rest? := by
  cases sc <;> rfl

theorem withRest_skipping (k y : Str) (sc : Scan) :
    (sc.withRest y).skipping k = (sc.skipping k).withRest y := by
  cases sc <;> rfl

theorem rest?_length {n : Nat} {s x : Str} (h : (scan n s).rest? = some x) : x.length < s.length := by
  have hok := scan_ok n s
  cases hs : scan n s with
  | done => rw [hs] at h; simp [Scan.rest?] at h
  | tok k raw t j y =>
    rw [hs] at h hok
    simp only [Scan.rest?, Option.some.injEq] at h
    subst h
    have := raw_pos hok.2.2.1 hok.2.2.2.1
    rw [hok.1]; simp; omega
  | bad k c y =>
    rw [hs] at h hok
    simp only [Scan.rest?, Option.some.injEq] at h
    subst h
    rw [hok.1]; simp; omega

/-- The same character, or both blanks. -/
def Same (c c' : Char) : Prop := c = c' ∨ (isBlank c ∧ isBlank c')

theorem Same.false {c c' : Char} (h : Same c c') {p : Char → Bool} (hp : ∀ c, isBlank c → p c = false)
    (hc : p c = false) : p c' = false := by
  rcases h with rfl | ⟨_, h⟩
  · exact hc
  · exact hp _ h

theorem dropWhile_split {p : Char → Bool} {a : Str} {c : Char} {x : Str}
    (h : (a ++ c :: x).dropWhile p = c :: x) : a.all p = true ∧ p c = false := by
  have h1 := List.takeWhile_append_dropWhile (p := p) (l := a ++ c :: x)
  have h3 := List.head_dropWhile_not p (l := a ++ c :: x) (by rw [h]; simp)
  simp only [h, List.head_cons] at h3
  rw [h] at h1
  have h2 : (a ++ c :: x).takeWhile p = a := List.append_cancel_right h1
  refine ⟨?_, h3⟩
  rw [← h2]
  exact List.all_takeWhile

theorem dropWhile_append_mem (a y : Str) (h : '\n' ∈ a) :
    (a ++ y).dropWhile (· ≠ '\n') = a.dropWhile (· ≠ '\n') ++ y ∧
    (a ++ y).takeWhile (· ≠ '\n') = a.takeWhile (· ≠ '\n') := by
  induction a with
  | nil => simp at h
  | cons c cs ih =>
    by_cases hc : c = '\n'
    · subst hc; simp
    · have hm : '\n' ∈ cs := by
        rcases List.mem_cons.mp h with e | e
        · exact absurd e.symm hc
        · exact e
      have := ih hm
      simp [hc] at this ⊢
      exact this

theorem dropWhile_append_notMem (a y : Str) (h : '\n' ∉ a) :
    (a ++ y).dropWhile (· ≠ '\n') = y.dropWhile (· ≠ '\n') := by
  induction a with
  | nil => rfl
  | cons c cs ih =>
    simp only [List.mem_cons, not_or] at h
    have hc : c ≠ '\n' := fun e => h.1 e.symm
    have := ih h.2
    simp [hc] at this ⊢
    exact this

theorem scanDelim_local {d q : Char} {a : Str} {c c' : Char} {x x' : Str}
    (h : (scanDelim d q (a ++ c :: x)).rest? = some (c :: x)) :
    scanDelim d q (a ++ c' :: x') = (scanDelim d q (a ++ c :: x)).withRest (c' :: x') := by
  simp only [scanDelim, Scan.rest?, Option.some.injEq] at h
  have h1 := List.takeWhile_append_dropWhile (p := (fun y => decide (y ≠ q))) (l := a ++ c :: x)
  cases hD : (a ++ c :: x).dropWhile (· ≠ q) with
  | nil => rw [hD] at h; simp at h
  | cons e es =>
    have he : e = q := by
      have := List.head_dropWhile_not (fun y => decide (y ≠ q)) (l := a ++ c :: x) (by rw [hD]; simp)
      simp only [hD, List.head_cons, ne_eq, decide_eq_false_iff_not, Decidable.not_not] at this
      exact this
    subst he
    rw [hD] at h h1
    simp only [List.drop_succ_cons, List.drop_zero] at h
    subst h
    have ha : a = (a ++ c :: x).takeWhile (· ≠ e) ++ [e] := by
      have : ((a ++ c :: x).takeWhile (· ≠ e) ++ [e]) ++ c :: x = a ++ c :: x := by
        simpa using h1
      exact (List.append_cancel_right this).symm
    have hn : e ∉ (a ++ c :: x).takeWhile (· ≠ e) := by
      intro hm
      have := List.all_takeWhile (p := (fun y => decide (y ≠ e))) (l := a ++ c :: x)
      rw [List.all_eq_true] at this
      simpa using this e hm
    generalize (a ++ c :: x).takeWhile (· ≠ e) = T at ha hn
    subst ha
    obtain ⟨e1, e2⟩ := takeWhile_ne (b := c :: x) hn
    obtain ⟨e3, e4⟩ := takeWhile_ne (b := c' :: x') hn
    simp only [List.append_assoc, List.cons_append, List.nil_append, scanDelim, e1, e2, e3, e4,
      Scan.withRest, List.take_succ_cons, List.take_zero, List.drop_succ_cons, List.drop_zero]

theorem wordToken_blank {c : Char} (hc : isBlank c) (w : Str) :
    wordToken (some c) w = wordToken none w := by
  have : numOrWord (some c) w = numOrWord none w := by
    unfold numOrWord
    simp only
    rw [if_neg]
    rintro (rfl | rfl) <;> exact absurd hc.1 (by decide)
  unfold wordToken
  rw [this]

theorem Same.wordToken {c c' : Char} (h : Same c c') (w : Str) :
    Rsh.wordToken (some c) w = Rsh.wordToken (some c') w := by
  rcases h with rfl | ⟨h, h'⟩
  · rfl
  · rw [wordToken_blank h, wordToken_blank h']

theorem scanWord_local {d : Char} {a : Str} {c c' : Char} {x x' : Str}
    (hc : Same c c') (h : (scanWord d (a ++ c :: x)).rest? = some (c :: x)) :
    scanWord d (a ++ c' :: x') = (scanWord d (a ++ c :: x)).withRest (c' :: x') := by
  simp only [scanWord, Scan.rest?, Option.some.injEq] at h
  obtain ⟨hx, n1⟩ := dropWhile_split h
  have n2 := hc.false (fun c h => isWs_not_wordContinue h.1) n1
  have h1 := takeWhile_append_of_all (b := c :: x) hx (by simp [n1])
  have h2 := takeWhile_append_of_all (b := c' :: x') hx (by simp [n2])
  simp only [scanWord, h1, h2, Scan.withRest, List.head?_cons, hc.wordToken]

theorem scanPair_local {d : Char} {alts : List (Char × Token)} {t : Token} {a : Str} {c c' : Char}
    {x x' : Str} (hc : Same c c')
    (ha : ∀ p ∈ alts, isWs p.1 = false)
    (h : (scanPair d alts t (a ++ c :: x)).rest? = some (c :: x)) :
    scanPair d alts t (a ++ c' :: x') = (scanPair d alts t (a ++ c :: x)).withRest (c' :: x') := by
  have hno : ∀ y, isBlank y → (alts.lookup y).isSome = false := by
    intro y hy
    have : alts.lookup y = none := by
      rw [List.lookup_eq_none_iff]
      intro p hp
      have := ha p hp
      simp only [bne_iff_ne, ne_eq]
      rintro rfl
      simp [hy.1] at this
    simp [this]
  cases a with
  | nil =>
    simp only [List.nil_append, scanPair] at h ⊢
    cases hl : alts.lookup c with
    | some t' =>
      rw [hl] at h
      simp only [Scan.rest?, Option.some.injEq] at h
      have := congrArg List.length h
      simp at this
    | none =>
      have := hc.false hno (by rw [hl]; rfl)
      simp only [Option.isSome_eq_false_iff, Option.isNone_iff_eq_none] at this
      rw [this]; rfl
  | cons e as =>
    simp only [List.cons_append, scanPair] at h ⊢
    cases hl : alts.lookup e with
    | none =>
      rw [hl] at h
      simp only [Scan.rest?, Option.some.injEq] at h
      have := congrArg List.length h
      simp at this; omega
    | some t' =>
      rw [hl] at h
      simp only [Scan.rest?, Option.some.injEq] at h
      have : as = [] := by
        have := congrArg List.length h
        simp at this
        exact this
      subst this
      simp [Scan.withRest]

theorem scan_local {n : Nat} {a : Str} {c c' : Char} {x x' : Str}
    (hc : Same c c') (h : (scan n (a ++ c :: x)).rest? = some (c :: x)) :
    scan n (a ++ c' :: x') = (scan n (a ++ c :: x)).withRest (c' :: x') := by
  induction n generalizing a with
  | zero => simp [scan, Scan.rest?] at h
  | succ n ih =>
    cases a with
    | nil => have := rest?_length h; simp at this
    | cons d as =>
      have one : ∀ {as : Str} (t : Token),
          (Scan.tok [] [d] t d.utf8Size (as ++ c :: x)).rest? = some (c :: x) →
          Scan.tok [] [d] t d.utf8Size (as ++ c' :: x')
            = (Scan.tok [] [d] t d.utf8Size (as ++ c :: x)).withRest (c' :: x') := by
        intro as t h
        simp only [Scan.rest?, Option.some.injEq] at h
        have : as = [] := by
          have := congrArg List.length h
          simp at this
          exact this
        subst this
        rfl
      rw [List.cons_append, scan] at h
      rw [List.cons_append, List.cons_append, scan, scan]
      · by_cases h0 : d = '\n'
        · rw [if_pos h0] at h
          rw [if_pos h0, if_pos h0]
          simp only [Scan.rest?, Option.some.injEq] at h
          obtain ⟨hx, n1⟩ := dropWhile_split h
          have n2 := hc.false (p := (· = '\n')) (fun c h => by simpa using h.2) n1
          have h1 := takeWhile_append_of_all (b := c :: x) hx (by simp only [List.head?_cons, Option.all_some, n1, Bool.not_false])
          have h2 := takeWhile_append_of_all (b := c' :: x') hx (by simp only [List.head?_cons, Option.all_some, n2, Bool.not_false])
          simp only [h1, h2, Scan.withRest]
        rw [if_neg h0] at h
        rw [if_neg h0, if_neg h0]
        by_cases g1 : d = ';'
        · rw [if_pos g1] at h
          rw [if_pos g1, if_pos g1]
          exact one _ h
        rw [if_neg g1] at h
        rw [if_neg g1, if_neg g1]
        by_cases g2 : d = '|'
        · rw [if_pos g2] at h
          rw [if_pos g2, if_pos g2]
          exact scanPair_local hc (by decide) h
        rw [if_neg g2] at h
        rw [if_neg g2, if_neg g2]
        by_cases g3 : d = '&'
        · rw [if_pos g3] at h
          rw [if_pos g3, if_pos g3]
          exact scanPair_local hc (by decide) h
        rw [if_neg g3] at h
        rw [if_neg g3, if_neg g3]
        by_cases g4 : d = '`'
        · rw [if_pos g4] at h
          rw [if_pos g4, if_pos g4]
          exact scanDelim_local h
        rw [if_neg g4] at h
        rw [if_neg g4, if_neg g4]
        by_cases g5 : d = '$'
        · rw [if_pos g5] at h
          rw [if_pos g5, if_pos g5]
          cases as with
          | nil =>
            simp only [List.nil_append, List.head?_cons] at h ⊢
            rcases hc with rfl | ⟨hb, hb'⟩
            · split at h
              · rename_i e; simp at e; subst e
                simp only [scanDelim, Scan.rest?, Option.some.injEq] at h
                have h4 := congrArg List.length h
                have h5 := length_dropWhile_le (· ≠ ')') ('(' :: x)
                simp only [List.length_drop, List.length_cons] at h4 h5
                omega
              · rename_i e; simp at e; subst e
                rfl
              · rename_i n1 n2
                exact scanWord_local (a := []) (.inl rfl) h
            · have e1 : ∀ y, isBlank y → ∀ z : Str, (match some y with
                | some '(' => scanDelim d ')' (y :: z)
                | some '{' => Scan.tok [] [d] .dollar d.utf8Size (y :: z)
                | _ => scanWord d (y :: z)) = scanWord d (y :: z) := by
                intro y hy z
                split
                · rename_i e; simp at e; subst e; exact absurd hy.1 (by decide)
                · rename_i e; simp at e; subst e; exact absurd hy.1 (by decide)
                · rfl
              rw [e1 c hb] at h
              rw [e1 c hb, e1 c' hb']
              exact scanWord_local (a := []) (.inr ⟨hb, hb'⟩) h
          | cons e as =>
            simp only [List.cons_append, List.head?_cons] at h ⊢
            split at h
            · rename_i e'; simp at e'; subst e'
              exact scanDelim_local (a := '(' :: as) h
            · rename_i e'; simp at e'; subst e'
              exact one (as := '{' :: as) _ h
            · rename_i n1 n2
              exact scanWord_local (a := e :: as) hc h
        rw [if_neg g5] at h
        rw [if_neg g5, if_neg g5]
        by_cases g6 : d = '#'
        · rw [if_pos g6] at h
          rw [if_pos g6, if_pos g6]
          by_cases hm : '\n' ∈ as
          · have e1 := dropWhile_append_mem as (c :: x) hm
            have e2 := dropWhile_append_mem as (c' :: x') hm
            rw [e1.1, e1.2, rest?_skipping] at h
            rw [e1.1, e1.2, e2.1, e2.2, ih h, withRest_skipping]
          · exfalso
            rw [rest?_skipping] at h
            rw [dropWhile_append_notMem as (c :: x) hm] at h
            have := rest?_length h
            have := length_dropWhile_le (· ≠ '\n') (c :: x)
            omega
        rw [if_neg g6] at h
        rw [if_neg g6, if_neg g6]
        by_cases g7 : d = '('
        · rw [if_pos g7] at h
          rw [if_pos g7, if_pos g7]
          exact one _ h
        rw [if_neg g7] at h
        rw [if_neg g7, if_neg g7]
        by_cases g8 : d = ')'
        · rw [if_pos g8] at h
          rw [if_pos g8, if_pos g8]
          exact one _ h
        rw [if_neg g8] at h
        rw [if_neg g8, if_neg g8]
        by_cases g9 : d = '{'
        · rw [if_pos g9] at h
          rw [if_pos g9, if_pos g9]
          exact one _ h
        rw [if_neg g9] at h
        rw [if_neg g9, if_neg g9]
        by_cases g10 : d = '}'
        · rw [if_pos g10] at h
          rw [if_pos g10, if_pos g10]
          exact one _ h
        rw [if_neg g10] at h
        rw [if_neg g10, if_neg g10]
        by_cases g11 : d = '>'
        · rw [if_pos g11] at h
          rw [if_pos g11, if_pos g11]
          exact scanPair_local hc (by decide) h
        rw [if_neg g11] at h
        rw [if_neg g11, if_neg g11]
        by_cases g12 : d = '<'
        · rw [if_pos g12] at h
          rw [if_pos g12, if_pos g12]
          exact scanPair_local hc (by decide) h
        rw [if_neg g12] at h
        rw [if_neg g12, if_neg g12]
        by_cases g13 : d = '='
        · rw [if_pos g13] at h
          rw [if_pos g13, if_pos g13]
          exact one _ h
        rw [if_neg g13] at h
        rw [if_neg g13, if_neg g13]
        by_cases g14 : d = '"'
        · rw [if_pos g14] at h
          rw [if_pos g14, if_pos g14]
          exact scanDelim_local h
        rw [if_neg g14] at h
        rw [if_neg g14, if_neg g14]
        by_cases g15 : d = '\''
        · rw [if_pos g15] at h
          rw [if_pos g15, if_pos g15]
          exact scanDelim_local h
        rw [if_neg g15] at h
        rw [if_neg g15, if_neg g15]
        by_cases g16 : d = '!'
        · rw [if_pos g16] at h
          rw [if_pos g16, if_pos g16]
          exact one _ h
        rw [if_neg g16] at h
        rw [if_neg g16, if_neg g16]
        by_cases h1 : isWordStart d
        · rw [if_pos h1] at h
          rw [if_pos h1, if_pos h1]
          exact scanWord_local hc h
        rw [if_neg h1] at h
        rw [if_neg h1, if_neg h1]
        by_cases h2 : isWs d
        · rw [if_pos h2] at h
          rw [if_pos h2, if_pos h2]
          rw [rest?_skipping] at h
          rw [ih h, withRest_skipping]
        rw [if_neg h2] at h
        rw [if_neg h2, if_neg h2]
        simp only [Scan.rest?, Option.some.injEq] at h
        have : as = [] := by
          have := congrArg List.length h
          simp at this
          exact this
        subst this
        rfl


theorem scanT_local {a b : Str} {c c' : Char} {x x' : Str} (hc : Same c c')
    (h : (scanT (a ++ (b ++ c :: x))).rest? = some (b ++ c :: x)) :
    scanT (a ++ (b ++ c' :: x')) = (scanT (a ++ (b ++ c :: x))).withRest (b ++ c' :: x') := by
  unfold scanT at *
  rw [scan_fuel _ (a.length + b.length + x.length + x'.length + 10) _ (by omega) (by simp; omega)]
    at h ⊢
  rw [scan_fuel ((a ++ (b ++ c :: x)).length + 1) (a.length + b.length + x.length + x'.length + 10)
    _ (by omega) (by simp; omega)]
  cases b with
  | nil => exact scan_local hc h
  | cons e es => exact scan_local (c := e) (c' := e) (.inl rfl) h

theorem toks_local {k : Nat} {pre p : Str} {c c' : Char} {x x' : Str} (hc : Same c c')
    (h : ((Lexer.after k (lexerAt pre (p ++ c :: x))).rest = c :: x))
    (hx : toks (c :: x) = toks (c' :: x')) :
    toks (p ++ c :: x) = toks (p ++ c' :: x') := by
  induction k generalizing p pre with
  | zero =>
    have : p = [] := by
      have := congrArg List.length h
      simp [Lexer.after, lexerAt] at this
      exact this
    subst this; exact hx
  | succ k ih =>
    rw [Lexer.after, next_scanT] at h
    have hok := scanT_ok (p ++ c :: x)
    cases hs : scanT (p ++ c :: x) with
    | done =>
      rw [hs] at h
      simp only [scanOut] at h
      rw [after_eof _ _ rfl rfl] at h
      simp [lexerAt] at h
    | bad s d y =>
      rw [hs] at h hok
      simp only [scanOut] at h
      have hy : ∃ q, y = q ++ c :: x := by
        rcases after_lexerAt k (pre ++ s ++ [d]) y with ⟨a, z, e1, e2⟩ | e
        · rw [e2] at h; exact ⟨a, by rw [e1]; congr 1⟩
        · rw [h] at e; simp at e
      obtain ⟨q, rfl⟩ := hy
      have hp : p = (s ++ [d]) ++ q := by
        have := hok.1
        rw [show s ++ d :: (q ++ c :: x) = ((s ++ [d]) ++ q) ++ c :: x by simp] at this
        exact List.append_cancel_right this
      rw [toks_of_bad hs]
      subst hp
      rw [List.append_assoc] at hs ⊢
      have h3 := scanT_local (c' := c') (x' := x') hc (by rw [hs]; rfl)
      rw [hs] at h3
      exact (toks_of_bad h3).symm
    | tok s raw t j y =>
      rw [hs] at h hok
      simp only [scanOut] at h
      have hy : ∃ q, y = q ++ c :: x := by
        rcases after_lexerAt k (pre ++ s ++ raw) y with ⟨a, z, e1, e2⟩ | e
        · rw [e2] at h; exact ⟨a, by rw [e1]; congr 1⟩
        · rw [h] at e; simp at e
      obtain ⟨q, rfl⟩ := hy
      have hp : p = (s ++ raw) ++ q := by
        have := hok.1
        rw [show s ++ raw ++ (q ++ c :: x) = ((s ++ raw) ++ q) ++ c :: x by simp] at this
        exact List.append_cancel_right this
      rw [toks_of_tok hs, ih h]
      subst hp
      rw [List.append_assoc] at hs ⊢
      have h3 := scanT_local (c' := c') (x' := x') hc (by rw [hs]; rfl)
      rw [hs] at h3
      exact (toks_of_tok h3).symm

end Rsh
