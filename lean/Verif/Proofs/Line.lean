import Verif.Spec.Words
import Verif.Spec.Grammar
import Verif.Proofs.Parser
import Verif.Props.Lexer

/-!
# Lexing and parsing a line of words
-/

namespace Rsh

open Spec

/-- The text is one token wherever a blank or the end of the input follows. -/
def LexesTo (x : Str) (t : Token) : Prop :=
  ∀ rest : Str, (∀ c, rest.head? = some c → Blank c) → toks (x ++ rest) = (toks rest).map (t :: ·)

/-- Blank runs of a line. -/
structure LineOk (l : List (Str × Str)) (trail : Str) : Prop where
  blanks : ∀ p ∈ l, ∀ c ∈ p.1, Blank c
  seps : ∀ p ∈ l.tail, p.1 ≠ []
  trail : ∀ c ∈ trail, Blank c

theorem LineOk.tail {q l trail} (h : LineOk (q :: l) trail) : LineOk l trail where
  blanks p hp := h.blanks p (List.mem_cons_of_mem _ hp)
  seps p hp := h.seps p (by
    cases l with
    | nil => simp at hp
    | cons a as => exact List.mem_cons_of_mem _ hp)
  trail := h.trail

theorem line_head {q l trail} (h : LineOk (q :: l) trail) :
    ∀ c, (line l trail).head? = some c → Blank c := by
  intro c hc
  cases l with
  | nil => cases trail with
    | nil => simp [line] at hc
    | cons d ds => simp [line] at hc; subst hc; exact h.trail _ List.mem_cons_self
  | cons q' l' =>
    obtain ⟨b', w'⟩ := q'
    have hne := h.seps (b', w') (by simp)
    cases b' with
    | nil => simp at hne
    | cons d ds =>
      simp [line] at hc
      subst hc
      exact h.blanks (d :: ds, w') (by simp) d (by simp)

theorem lex_line (l : List (Str × Str)) (trail : Str) (f : Str → Token)
    (hw : ∀ p ∈ l, LexesTo p.2 (f p.2)) (h : LineOk l trail) :
    lex (line l trail) = some (l.map (fun p => f p.2) ++ [.eof]) := by
  rw [lex_toks]
  induction l with
  | nil =>
    have := toks_blanks trail [] h.trail
    rw [List.append_nil, toks_nil] at this
    exact this
  | cons q l ih =>
    obtain ⟨b, w⟩ := q
    have hih := ih (fun p hp => hw p (List.mem_cons_of_mem _ hp)) h.tail
    have e : line ((b, w) :: l) trail = b ++ (w ++ line l trail) := by simp [line]
    rw [e, toks_blanks b _ (h.blanks (b, w) List.mem_cons_self),
      hw (b, w) List.mem_cons_self _ (line_head h), hih]
    rfl

theorem head_notCont {rest : Str} (h : ∀ c, rest.head? = some c → Blank c) :
    rest.head?.all (fun c => !isWordContinue c) = true := by
  cases hr : rest.head? with
  | none => rfl
  | some c => simp [isWs_not_wordContinue (h c hr).1]

theorem head_notRedir {rest : Str} (h : ∀ c, rest.head? = some c → Blank c) :
    rest.head?.all (fun c => c ≠ '<' ∧ c ≠ '>') = true := by
  cases hr : rest.head? with
  | none => rfl
  | some c =>
    simp only [Option.all_some, decide_eq_true_eq]
    exact ⟨blank_ne (h c hr) (by decide), blank_ne (h c hr) (by decide)⟩

theorem lexesTo_plain {w : Str} (h : PlainWord w) : LexesTo w (.word w) := fun rest hr =>
  toks_plain w rest h (head_notCont hr) (head_notRedir hr)

theorem scanT_dollarWord (c : Char) (cs : Str) (h : c ≠ '(' ∧ c ≠ '{') :
    scanT ('$' :: c :: cs) = scanWord '$' (c :: cs) := by
  unfold scanT
  rw [List.length_cons, scan]
  simp only [Char.reduceEq, if_false, if_true, List.head?_cons]
  split
  · next e => simp at e; exact absurd e h.1
  · next e => simp at e; exact absurd e h.2
  · rfl

theorem lexesTo_var {n : Str} (h : n ≠ [] ∧ ∀ c ∈ n, isWs c = false ∧ c ∉ special) :
    LexesTo ('$' :: n) (.word ('$' :: n)) := by
  intro rest hr
  obtain ⟨h1, h2⟩ := h
  cases n with
  | nil => exact absurd rfl h1
  | cons c cs =>
    have hall : (c :: cs).all isWordContinue = true := by
      rw [List.all_eq_true]; exact fun d hd => plain_continue (h2 d hd)
    obtain ⟨e1, e2⟩ := takeWhile_append_of_all hall (head_notCont hr)
    have hc := (h2 c List.mem_cons_self).2
    have hs := scanT_dollarWord c (cs ++ rest)
      ⟨by rintro rfl; exact hc (by decide), by rintro rfl; exact hc (by decide)⟩
    rw [← List.cons_append, scanWord, e1, e2] at hs
    have := toks_of_tok hs
    rw [wordToken_plain (by simp [reserved]) (head_notRedir hr)] at this
    exact this

theorem mixedWord_parts {w : Str} (h : MixedWord w) :
    w ≠ [] ∧ w.head?.all wordHead = true ∧ w.all isWordContinue = true := by
  obtain ⟨⟨c, hc, h1⟩, h2, -⟩ := h
  rw [Option.mem_def] at hc
  refine ⟨by rintro rfl; simp at hc, by rw [hc]; simpa using plain_head h1, ?_⟩
  rw [List.all_eq_true]
  intro d hd
  obtain ⟨h3, h4⟩ := h2 d hd
  by_cases hs : d ∈ special
  · have := h4 hs
    simp only [List.mem_cons, List.not_mem_nil, or_false] at this
    rcases this with rfl | rfl | rfl <;> decide
  · exact plain_continue ⟨h3, hs⟩

theorem mixedWord_head {w : Str} (h : MixedWord w) {c : Char} (hc : c ∈ special) : w.head? ≠ some c := by
  obtain ⟨⟨d, hd, h1⟩, -⟩ := h
  rw [Option.mem_def] at hd
  intro e
  rw [hd] at e
  cases e
  exact h1.2 hc

theorem lexesTo_mixed {w : Str} (h : MixedWord w) : LexesTo w (.word w) := fun rest hr => by
  obtain ⟨h1, h2, h3⟩ := mixedWord_parts h
  rw [toks_word w rest h1 h2 h3 (head_notCont hr), wordToken_plain h.2.2 (head_notRedir hr)]

theorem lexesTo_typed {t : Typed} (h : t.Ok) : LexesTo t.text (.word t.text) := by
  cases t with
  | plain w => exact lexesTo_plain h
  | mixed w => exact lexesTo_mixed h
  | single t => intro rest _; simpa [Typed.text] using toks_delim t rest scanT_squote h
  | double t => intro rest _; simpa [Typed.text] using toks_delim t rest scanT_dquote h
  | backtick t => intro rest _; simpa [Typed.text] using toks_delim t rest scanT_backtick h
  | var n => exact lexesTo_var h
  | subst t =>
    intro rest _
    have := C07_substitution t rest h
    rw [lex_toks, lex_toks] at this
    simpa [Typed.text] using this

theorem lexesTo_reserved {w : Str} (h : w ∈ reserved) : ∃ t ∈ reservedTokens, LexesTo w t := by
  have key : ∀ w ∈ reserved, w ≠ [] ∧ w.head?.all wordHead = true ∧ w.all isWordContinue = true ∧
      wordToken none w ∈ reservedTokens ∧ ∀ o, wordToken o w = wordToken none w := by
    intro w hw
    simp only [reserved, List.mem_cons, List.not_mem_nil, or_false] at hw
    rcases hw with rfl | rfl | rfl | rfl | rfl | rfl | rfl | rfl | rfl | rfl | rfl | rfl <;>
      exact ⟨by decide, by decide, by decide, by decide, fun o => rfl⟩
  obtain ⟨h1, h2, h3, h4, h5⟩ := key w h
  refine ⟨_, h4, fun rest hr => ?_⟩
  rw [toks_word w rest h1 h2 h3 (head_notCont hr), h5]

theorem words_suf (w : Str) (ws : List Str) :
    Derives .suf ((w :: ws).map .word) ⟨[], w :: ws⟩ := by
  have key : ∀ ws : List Str, ws ≠ [] → Derives .suf (ws.map .word) ⟨[], ws⟩ := by
    intro ws
    induction ws using snocInd with
    | nil => intro h; exact absurd rfl h
    | snoc ws x ih =>
      intro _
      rw [List.map_append]
      by_cases h : ws = []
      · subst h; exact .sufWord
      · exact .sufSnocWord (ih h) .wordWord
  exact key _ (by simp)

/-- The suffix of a command with the given arguments. -/
def sufOf : List Str → Option Suffix
  | [] => none
  | ws => some ⟨[], ws⟩

/-- A command that consists of words only. -/
def wordsCommand (w : Str) (ws : List Str) : CompleteCommand :=
  some [.mk none none (.mk false [.simple ⟨none, w, sufOf ws⟩] false)]

theorem words_simple (w : Str) (ws : List Str) :
    Derives .simpleCommand ((w :: ws).map .word) ⟨none, w, sufOf ws⟩ := by
  cases ws with
  | nil => exact .scName .cmdNameWord
  | cons x ws =>
    exact Derives.scNameSuf (a := [.word w]) .cmdNameWord (words_suf x ws)

theorem parse_words (w : Str) (ws : List Str) :
    parseTokens ((w :: ws).map .word ++ [.eof]) = some (wordsCommand w ws) :=
  parseTokens_complete (.ccListSep (.listOne (.aoOne (.plSeq (.psOne (.cmdSimple (words_simple w ws))))))
    .sepEof)

/-- Parsing a line of typed words. -/
theorem parse_line (b0 : Str) (w0 : Typed) (l : List (Str × Typed)) (trail : Str)
    (h0 : w0.Ok) (hl : ∀ p ∈ l, p.2.Ok)
    (h : LineOk ((b0, w0.text) :: l.map fun p => (p.1, p.2.text)) trail) :
    parse (line ((b0, w0.text) :: l.map fun p => (p.1, p.2.text)) trail)
      = some (wordsCommand w0.text (l.map fun p => p.2.text)) := by
  unfold parse
  rw [lex_line _ _ .word ?_ h, Option.bind_some]
  · have := parse_words w0.text (l.map fun p => p.2.text)
    simpa [Function.comp_def] using this
  · intro p hp
    simp only [List.mem_cons, List.mem_map] at hp
    rcases hp with rfl | ⟨q, hq, rfl⟩
    · exact lexesTo_typed h0
    · exact lexesTo_typed (hl q hq)

end Rsh
