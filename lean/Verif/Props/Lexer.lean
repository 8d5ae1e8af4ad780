import Verif.Spec.Lexer
import Verif.Proofs.Lexer

/-!
# Properties of the lexer: C01-C07
-/

namespace Rsh

open Spec

theorem after_eq (k : Nat) (lx : Lexer) : Spec.after k lx = lx.after k := by
  induction k generalizing lx with
  | zero => rfl
  | succ k ih => exact ih _

/-! ## C01 -/

/-- `items` misses nothing: further calls of `next` yield no further item. -/
theorem items_complete (s : Str) (k : Nat) :
    itemsAux (s.length + 2 + k) (Lexer.new s) = items s := by
  unfold items
  rw [lexer_new]
  exact items_more _ k [] s (by omega)

/-- C01: lexing never panics, yields at most one item per character plus one, no further call
yields anything, and the last item and no other is EOF. -/
theorem C01_lex_total (s : Str) :
    Item.panic ∉ items s ∧
    (items s).length ≤ s.length + 1 ∧
    (∀ k, itemsAux (s.length + 2 + k) (Lexer.new s) = items s) ∧
    ∃ l, items s = l ++ [.tok 0 .eof 0] ∧ ∀ a b, .tok a .eof b ∉ l := by
  obtain ⟨l, e, hl, hf, _⟩ := items_fit (s.length + 2) [] s (by omega)
  have e' : items s = l ++ [.tok 0 .eof 0] := by unfold items; rw [lexer_new, e]
  refine ⟨?_, ?_, items_complete s, l, e', ?_⟩
  · rw [e']
    intro hm
    rcases List.mem_append.mp hm with h | h
    · exact hf _ h
    · simp at h
  · rw [e']; simp; omega
  · intro a b hm
    exact (hf _ hm).2.2.2.1 rfl

/-- C01, for the token sequence: when no character is rejected, EOF is the last token and only
the last. -/
theorem C01_lex_eof (s : Str) (ts : List Token) (h : lex s = some ts) :
    ∃ l, ts = l ++ [.eof] ∧ Token.eof ∉ l := by
  obtain ⟨_, _, _, l, e, hl⟩ := C01_lex_total s
  unfold lex at h
  rw [e] at h
  clear e
  induction l generalizing ts with
  | nil => simp [tokensOf] at h; exact ⟨[], by simp [← h]⟩
  | cons i is ih =>
    cases i with
    | panic => simp [tokensOf] at h
    | err => simp [tokensOf] at h
    | tok a t b =>
      simp only [List.cons_append, tokensOf, Option.map_eq_some_iff] at h
      obtain ⟨ts', h1, h2⟩ := h
      obtain ⟨l, e1, e2⟩ := ih ts' h1 (fun a b hm => hl a b (List.mem_cons_of_mem _ hm))
      refine ⟨t :: l, by rw [← h2, e1]; rfl, ?_⟩
      intro hm
      rcases List.mem_cons.mp hm with h | h
      · subst h; exact hl a b List.mem_cons_self
      · exact e2 h

example : lex (cs!"a|b \"c d\"") = some [.word (cs!"a"), .pipe, .word (cs!"b"), .word (cs!"\"c d\""),
    .eof] := by decide
/-- An error item is followed by further items. -/
example : items (cs!"a*b") = [.tok 0 (.word (cs!"a")) 1, .err 1 '*' 2, .tok 2 (.word (cs!"b")) 3,
    .tok 0 .eof 0] := by decide

/-! ## C02 -/

/-- C02: spans are non-empty, inside the input, in order and disjoint; word and number tokens
carry exactly the source text of their span. -/
theorem C02_spans (s : Str) :
    (∀ a t b, .tok a t b ∈ items s → t ≠ .eof →
      a < b ∧ b ≤ blen s ∧
      (∀ w, t = .word w → sliceB s a b = some w) ∧
      (∀ n, t = .number n → ∃ w, sliceB s a b = some w ∧ parseI32 w = some n)) ∧
    ((items s).dropLast).Pairwise (fun i j => stop i ≤ start j) := by
  obtain ⟨l, e, _, hf, hp⟩ := items_fit (s.length + 2) [] s (by omega)
  have e' : items s = l ++ [.tok 0 .eof 0] := by unfold items; rw [lexer_new, e]
  rw [e']
  constructor
  · intro a t b hm ht
    rcases List.mem_append.mp hm with h | h
    · have := hf _ h
      exact ⟨this.2.1, this.2.2.1, this.2.2.2.2.1, this.2.2.2.2.2⟩
    · simp at h; exact absurd h.2.1 ht
  · rw [List.dropLast_concat]
    refine hp.imp ?_
    intro i j h
    cases i <;> cases j <;> exact h

/-- Non-ASCII input: the span of `é` is two bytes long. -/
example : items (cs!"é b") = [.tok 0 (.word (cs!"é")) 2, .tok 3 (.word (cs!"b")) 4, .tok 0 .eof 0] := by
  decide

/-! ## C03 -/

/-- C03: an error is reported only for a `*`, at its position; without `*` no input is rejected. -/
theorem C03_star (s : Str) :
    (∀ a c b, .err a c b ∈ items s → c = '*' ∧ ∃ p q, s = p ++ '*' :: q ∧ a = blen p ∧ b = a + 1) ∧
    ('*' ∉ s → ∃ ts, lex s = some ts) := by
  have key : ∀ n pre rest, rest.length + 1 < n →
      ∀ a c b, .err a c b ∈ itemsAux n (lexerAt pre rest) →
      c = '*' ∧ ∃ p q, rest = p ++ '*' :: q ∧ a = blen pre + blen p ∧ b = a + 1 := by
    intro n
    induction n with
    | zero => intro pre rest h; omega
    | succ n ih =>
      intro pre rest hn a c b hm
      rw [itemsAux, next_scanT] at hm
      have hok := scanT_ok rest
      cases h : scanT rest with
      | done =>
        rw [h] at hm
        simp only [scanOut] at hm
        rw [itemsAux_eof _ _ rfl rfl] at hm
        simp at hm
      | bad k d x =>
        rw [h] at hm hok
        obtain ⟨h1, rfl⟩ := hok
        simp only [scanOut, List.mem_cons] at hm
        rcases hm with hm | hm
        · simp only [Item.err.injEq] at hm
          obtain ⟨rfl, rfl, rfl⟩ := hm
          exact ⟨rfl, k, x, h1, blen_append _ _, rfl⟩
        · have hl : rest.length = k.length + 1 + x.length := by rw [h1]; simp; omega
          obtain ⟨e, p, q, e1, e2, e3⟩ := ih _ x (by omega) a c b hm
          refine ⟨e, k ++ '*' :: p, q, by rw [h1, e1]; simp, ?_, e3⟩
          rw [e2]; simp only [blen_append, blen]; omega
      | tok k raw t j x =>
        rw [h] at hm hok
        obtain ⟨h1, _, h3, h4, _⟩ := hok
        simp only [scanOut, List.mem_cons, reduceCtorEq, false_or] at hm
        have hr := raw_pos h3 h4
        have hl : rest.length = k.length + raw.length + x.length := by rw [h1]; simp [Nat.add_assoc]
        obtain ⟨e, p, q, e1, e2, e3⟩ := ih _ x (by omega) a c b hm
        refine ⟨e, k ++ raw ++ p, q, by rw [h1, e1]; simp, ?_, e3⟩
        rw [e2]; simp only [blen_append]; omega
  have key' : ∀ a c b, .err a c b ∈ items s → c = '*' ∧
      ∃ p q, s = p ++ '*' :: q ∧ a = blen p ∧ b = a + 1 := by
    intro a c b hm
    unfold items at hm
    rw [lexer_new] at hm
    obtain ⟨e, p, q, e1, e2, e3⟩ := key _ [] s (by omega) a c b hm
    exact ⟨e, p, q, e1, by simpa [blen] using e2, e3⟩
  refine ⟨key', fun hs => ?_⟩
  have hno : ∀ i ∈ items s, ∃ a t b, i = .tok a t b := by
    intro i hi
    cases i with
    | tok a t b => exact ⟨a, t, b, rfl⟩
    | panic => exact absurd hi (C01_lex_total s).1
    | err a c b =>
      obtain ⟨_, p, q, e, _⟩ := key' a c b hi
      exact absurd (by rw [e]; simp) hs
  unfold lex
  generalize items s = l at hno
  induction l with
  | nil => exact ⟨[], rfl⟩
  | cons i is ih =>
    obtain ⟨a, t, b, rfl⟩ := hno i List.mem_cons_self
    obtain ⟨ts, e⟩ := ih (fun i hi => hno i (List.mem_cons_of_mem _ hi))
    exact ⟨t :: ts, by simp [tokensOf, e]⟩

/-- A `*` where a token could start is rejected, wherever it is. -/
theorem C03_star_rejected (input rest : Str) (k : Nat)
    (h : (after k (Lexer.new input)).rest = '*' :: rest) :
    remaining (after k (Lexer.new input)) = none := by
  rw [after_eq] at *
  have := remaining_of_rest input k (by rw [h]; simp)
  rw [h] at this
  rw [show Spec.remaining = Lexer.remaining from rfl, this]
  apply toks_of_bad (k := []) (c := '*') (x := rest)
  unfold scanT
  rw [List.length_cons, scan]
  simp [show isWordStart '*' = false by decide, show isWs '*' = false by decide]

example : lex (cs!"ls *.txt") = none := by decide
example : '*' ∉ (cs!"ls 'x y' | wc") := by decide
example : lex (cs!"ls '*.txt'") = some [.word (cs!"ls"), .word (cs!"'*.txt'"), .eof] := by decide

/-! ## C04 -/

theorem toks_blanks (b s : Str) (hb : ∀ c ∈ b, Blank c) : toks (b ++ s) = toks s := by
  induction b with
  | nil => rfl
  | cons c cs ih =>
    have h1 := hb c List.mem_cons_self
    rw [List.cons_append, toks_blank c _ h1.1 h1.2,
      ih (fun d hd => hb d (List.mem_cons_of_mem _ hd))]

/-- C04 at the beginning of the input. -/
theorem C04_leading_blanks (b s : Str) (hb : ∀ c ∈ b, Blank c) : lex (b ++ s) = lex s := by
  rw [lex_toks, lex_toks, toks_blanks b s hb]

/-- **C04**: the blanks are exactly the Unicode white space other than the newline: tab, vertical tab, form feed, carriage
return, space, next line, no-break space, ogham space, the spaces from U+2000 to U+200A, the line and paragraph separators and the
narrow no-break, mathematical and ideographic spaces. -/
theorem C04_which (c : Char) : Blank c ↔ c.toNat ∈ [0x9, 0xB, 0xC, 0xD, 0x20, 0x85, 0xA0, 0x1680, 0x2000, 0x2001, 0x2002,
    0x2003, 0x2004, 0x2005, 0x2006, 0x2007, 0x2008, 0x2009, 0x200A, 0x2028, 0x2029, 0x202F, 0x205F, 0x3000] := by
  have hn : c ≠ '\n' ↔ c.toNat ≠ 10 := by
    refine not_congr ⟨fun h => by rw [h]; rfl, fun h => ?_⟩
    exact Char.ext (UInt32.toNat_inj.1 h)
  unfold Blank isWs
  rw [hn]
  simp only [Bool.or_eq_true, Bool.and_eq_true, decide_eq_true_eq, beq_iff_eq, List.mem_cons, List.not_mem_nil, or_false]
  omega

example : Blank ' ' ∧ Blank '\u2003' ∧ ¬ Blank '\n' ∧ ¬ Blank '\u200B' := by
  simp [Blank]; decide

/-- C04 in the middle of the input: wherever the lexer stands before a run of blanks, the tokens
that follow are those of the text after the blanks. -/
theorem C04_blanks (input b s : Str) (k : Nat) (hb : ∀ c ∈ b, Blank c) (hne : b ++ s ≠ [])
    (h : (after k (Lexer.new input)).rest = b ++ s) :
    remaining (after k (Lexer.new input)) = lex s := by
  rw [after_eq] at *
  have := remaining_of_rest input k (by rw [h]; exact hne)
  rw [show Spec.remaining = Lexer.remaining from rfl, this, h, toks_blanks b s hb, lex_toks]

/-- C04 as a statement about texts: between two tokens any non-empty run of blanks may replace
any other. `h` says that a token ends just before the blanks. -/
theorem C04_blank_runs (p b b' s : Str) (k : Nat) (hb : ∀ c ∈ b, Blank c) (hb' : ∀ c ∈ b', Blank c)
    (hn : b ≠ []) (hn' : b' ≠ [])
    (h : (after k (Lexer.new (p ++ (b ++ s)))).rest = b ++ s) :
    lex (p ++ (b ++ s)) = lex (p ++ (b' ++ s)) := by
  rw [after_eq, lexer_new] at h
  cases b with
  | nil => simp at hn
  | cons c cs =>
    cases b' with
    | nil => simp at hn'
    | cons c' cs' =>
      rw [lex_toks, lex_toks]
      have h1 := hb c List.mem_cons_self
      have h2 := hb' c' List.mem_cons_self
      refine toks_local (.inr ⟨h1, h2⟩) h ?_
      have e1 := toks_blanks (c :: cs) s hb
      have e2 := toks_blanks (c' :: cs') s hb'
      rw [List.cons_append] at e1 e2
      exact e1.trans e2.symm

example : (after 2 (Lexer.new (cs!"echo a   b"))).rest = (cs!"   ") ++ (cs!"b") := by decide
example : (∀ c ∈ (cs!"   "), Blank c) ∧ (∀ c ∈ (cs!"\t"), Blank c) := by decide
/-- Blanks are significant inside quotes: there no token ends before them. -/
example : lex (cs!"'a  b'") ≠ lex (cs!"'a b'") := by decide

/-! ## C05 -/

theorem toks_comment (text s : Str) (ht : '\n' ∉ text) (hs : s.head? = none ∨ s.head? = some '\n') :
    toks ('#' :: (text ++ s)) = toks s := by
  rw [toks_hash]
  cases s with
  | nil => rw [List.append_nil, (takeWhile_ne_all ht).2]
  | cons c cs =>
    have : c = '\n' := by simpa using hs
    subst this
    rw [(takeWhile_ne ht).2]

/-- C05: wherever a token may start, a comment up to the end of the line (or of the input)
contributes no token. -/
theorem C05_comment (input text s : Str) (k : Nat) (ht : '\n' ∉ text)
    (hs : s.head? = none ∨ s.head? = some '\n')
    (h : (after k (Lexer.new input)).rest = '#' :: (text ++ s)) :
    remaining (after k (Lexer.new input)) = lex s := by
  rw [after_eq] at *
  have := remaining_of_rest input k (by rw [h]; simp)
  rw [show Spec.remaining = Lexer.remaining from rfl, this, h, toks_comment text s ht hs, lex_toks]

/-- C05 at the beginning of the input. -/
theorem C05_leading_comment (text s : Str) (ht : '\n' ∉ text)
    (hs : s.head? = none ∨ s.head? = some '\n') : lex ('#' :: (text ++ s)) = lex s := by
  rw [lex_toks, lex_toks, toks_comment text s ht hs]

example : lex (cs!"ls # * ' \"\nwc") = some [.word (cs!"ls"), .newlineList, .word (cs!"wc"), .eof] := by
  decide
/-- `#` inside a word does not start a comment. -/
example : lex (cs!"a#b") = some [.word (cs!"a#b"), .eof] := by decide

/-! ## C06 -/

theorem plain_continue {c : Char} (h : isWs c = false ∧ c ∉ special) : isWordContinue c = true := by
  obtain ⟨h1, h2⟩ := h
  simp only [special, List.mem_cons, List.not_mem_nil, or_false, not_or] at h2
  unfold isWordContinue
  simp [h1, h2]

theorem plain_head {c : Char} (h : isWs c = false ∧ c ∉ special) : wordHead c = true := by
  have h1 := plain_continue h
  obtain ⟨_, h2⟩ := h
  simp only [special, List.mem_cons, List.not_mem_nil, or_false, not_or] at h2
  simp [wordHead, h1, h2]

theorem wordToken_plain {w : Str} {o : Option Char} (h : w ∉ reserved)
    (ho : o.all (fun c => c ≠ '<' ∧ c ≠ '>') = true) : wordToken o w = .word w := by
  simp only [reserved, List.mem_cons, List.not_mem_nil, or_false, not_or] at h
  obtain ⟨h1, h2, h3, h4, h5, h6, h7, h8, h9, h10, h11, h12⟩ := h
  unfold wordToken
  rw [if_neg h1, if_neg h2, if_neg h3, if_neg h4, if_neg h5, if_neg h6, if_neg h7, if_neg h8,
    if_neg h9, if_neg h10, if_neg h11, if_neg h12]
  cases o with
  | none => rfl
  | some c =>
    simp only [Option.all_some, decide_eq_true_eq] at ho
    simp [numOrWord, ho]

theorem blank_ne {c d : Char} (h : Blank c) (hd : isWs d = false) : c ≠ d := isWs_ne h.1 hd

/-- The tokens of a plain word followed by anything that cannot continue a word. -/
theorem toks_plain (w rest : Str) (hw : PlainWord w)
    (hr : rest.head?.all (fun c => !isWordContinue c) = true)
    (hr' : rest.head?.all (fun c => c ≠ '<' ∧ c ≠ '>') = true) :
    toks (w ++ rest) = (toks rest).map (.word w :: ·) := by
  obtain ⟨h1, h2, h3⟩ := hw
  rw [toks_word w rest h1 ?_ ?_ hr, wordToken_plain h3 hr']
  · cases w with
    | nil => simp at h1
    | cons c cs => simpa using plain_head (h2 c List.mem_cons_self)
  · rw [List.all_eq_true]
    exact fun c hc => plain_continue (h2 c hc)

/-- C06: plain words separated by blanks are tokenised to exactly those words and EOF. -/
theorem C06_plain_line (l : List (Str × Str)) (trail : Str)
    (hw : ∀ p ∈ l, PlainWord p.2) (hb : ∀ p ∈ l, ∀ c ∈ p.1, Blank c)
    (hsep : ∀ p ∈ l.tail, p.1 ≠ []) (ht : ∀ c ∈ trail, Blank c) :
    lex (line l trail) = some (l.map (fun p => .word p.2) ++ [.eof]) := by
  rw [lex_toks]
  induction l with
  | nil =>
    have := toks_blanks trail [] ht
    rw [List.append_nil, toks_nil] at this
    exact this
  | cons q l ih =>
    obtain ⟨b, w⟩ := q
    have hh : ∀ c, (line l trail).head? = some c → Blank c := by
      intro c hc
      cases l with
      | nil => cases trail with
        | nil => simp [line] at hc
        | cons d ds => simp [line] at hc; subst hc; exact ht _ List.mem_cons_self
      | cons q' l' =>
        obtain ⟨b', w'⟩ := q'
        have hne := hsep (b', w') (by simp)
        cases b' with
        | nil => simp at hne
        | cons d ds =>
          simp [line] at hc
          subst hc
          exact hb (d :: ds, w') (by simp) d (by simp)
    have hih := ih (fun p hp => hw p (List.mem_cons_of_mem _ hp))
      (fun p hp => hb p (List.mem_cons_of_mem _ hp)) (fun p hp => hsep p (by
        cases l with
        | nil => simp at hp
        | cons a as => exact List.mem_cons_of_mem _ hp))
    have e : line ((b, w) :: l) trail = b ++ (w ++ line l trail) := by simp [line]
    rw [e, toks_blanks b _ (hb (b, w) List.mem_cons_self),
      toks_plain w _ (hw (b, w) List.mem_cons_self), hih]
    · rfl
    · cases h : (line l trail).head? with
      | none => rfl
      | some c => simp [isWs_not_wordContinue (hh c h).1]
    · cases h : (line l trail).head? with
      | none => rfl
      | some c =>
        simp only [Option.all_some, decide_eq_true_eq]
        exact ⟨blank_ne (hh c h) (by decide), blank_ne (hh c h) (by decide)⟩

example : PlainWord (cs!"grep") ∧ PlainWord (cs!"-v") ∧ PlainWord (cs!"a\\b.txt~") ∧
    line [([], cs!"grep"), (cs!" ", cs!"-v"), (cs!"\t ", cs!"ünïcode")] (cs!" ")
      = cs!"grep -v\t ünïcode " := by decide
/-- A reserved word is not a plain word, and digits before `<` are not a word. -/
example : ¬ PlainWord (cs!"done") ∧ lex (cs!"2>f") = some [.number 2, .great, .word (cs!"f"), .eof] := by
  decide

/-! ## C07 -/

/-- C07: a token opened by `'`, `"` or a back quote runs to the first following delimiter,
whatever is in between. -/
theorem C07_quoted (q : Char) (hq : q = '\'' ∨ q = '"' ∨ q = '`') (text rest : Str)
    (ht : q ∉ text) :
    lex (q :: (text ++ q :: rest)) = (lex rest).map (.word (q :: (text ++ [q])) :: ·) := by
  rw [lex_toks, lex_toks]
  rcases hq with rfl | rfl | rfl
  · exact toks_delim text rest scanT_squote ht
  · exact toks_delim text rest scanT_dquote ht
  · exact toks_delim text rest scanT_backtick ht

/-- C07 for `$(`. -/
theorem C07_substitution (text rest : Str) (ht : ')' ∉ text) :
    lex ('$' :: '(' :: (text ++ ')' :: rest))
      = (lex rest).map (.word ('$' :: '(' :: (text ++ [')'])) :: ·) := by
  rw [lex_toks, lex_toks]
  have hn : ')' ∉ '(' :: text := by simp [ht]
  obtain ⟨h1, h2⟩ := takeWhile_ne (b := rest) hn
  have := scanT_dollarParen (text ++ ')' :: rest)
  simp only [scanDelim, ← List.cons_append, h1, h2] at this
  have h3 := toks_of_tok this
  simpa using h3

/-- C07, no closing delimiter: the token is the rest of the input. -/
theorem C07_unclosed (q : Char) (hq : q = '\'' ∨ q = '"' ∨ q = '`') (text : Str) (ht : q ∉ text) :
    lex (q :: text) = some [.word (q :: text), .eof] := by
  rw [lex_toks]
  rcases hq with rfl | rfl | rfl
  · exact toks_delim_open text scanT_squote ht
  · exact toks_delim_open text scanT_dquote ht
  · exact toks_delim_open text scanT_backtick ht

/-- C07, no closing parenthesis. -/
theorem C07_substitution_unclosed (text : Str) (ht : ')' ∉ text) :
    lex ('$' :: '(' :: text) = some [.word ('$' :: '(' :: text), .eof] := by
  rw [lex_toks]
  have hn : ')' ∉ '(' :: text := by simp [ht]
  obtain ⟨h1, h2⟩ := takeWhile_ne_all hn
  have := scanT_dollarParen text
  simp only [scanDelim, h1, h2] at this
  have h3 := toks_of_tok this
  rw [List.drop_nil, toks_nil] at h3
  simpa using h3

/-- C07 in the middle of the input: wherever a token may start. `close` is the delimiter that ends a
token that begins with `opening`. -/
theorem C07_anywhere (input opening text rest : Str) (close : Char) (k : Nat) (ht : close ∉ text)
    (ho : opening = [close] ∧ (close = '\'' ∨ close = '"' ∨ close = '`') ∨ opening = cs!"$(" ∧ close = ')') :
    ((after k (Lexer.new input)).rest = opening ++ text ++ close :: rest →
      remaining (after k (Lexer.new input)) = (lex rest).map (.word (opening ++ text ++ [close]) :: ·)) ∧
    ((after k (Lexer.new input)).rest = opening ++ text →
      remaining (after k (Lexer.new input)) = some [.word (opening ++ text), .eof]) := by
  have key : (after k (Lexer.new input)).rest ≠ [] →
      remaining (after k (Lexer.new input)) = lex (after k (Lexer.new input)).rest := by
    intro h
    rw [after_eq] at *
    rw [show Spec.remaining = Lexer.remaining from rfl, remaining_of_rest input k h, lex_toks]
  rcases ho with ⟨rfl, hq⟩ | ⟨rfl, rfl⟩
  · refine ⟨fun h => ?_, fun h => ?_⟩
    · rw [key (by rw [h]; simp), h]
      simpa using C07_quoted close hq text rest ht
    · rw [key (by rw [h]; simp), h]
      exact C07_unclosed close hq text ht
  · refine ⟨fun h => ?_, fun h => ?_⟩
    · rw [key (by rw [h]; simp), h]
      simpa using C07_substitution text rest ht
    · rw [key (by rw [h]; simp), h]
      exact C07_substitution_unclosed text ht

example : (after 2 (Lexer.new (cs!"ls|'a # b'c"))).rest = cs!"'" ++ (cs!"a # b") ++ '\'' :: cs!"c" := by decide
example : lex (cs!"'a | # \" b'c") = some [.word (cs!"'a | # \" b'"), .word (cs!"c"), .eof] := by decide
/-- The first `)` closes, so substitutions do not nest. -/
example : lex (cs!"$(a $(b) c)") =
    some [.word (cs!"$(a $(b)"), .word (cs!"c"), .rparen, .eof] := by decide

end Rsh
