import Verif.Proofs.Printing
import Verif.Proofs.Prompt

/-!
# Programs written out and read again
-/

namespace Rsh

open Spec

/-- C122: whatever tree of a program is written out, with groups in functions in pipelines to any depth, reading the
text gives that tree. -/
theorem C122_print (l : List AndOr) (h : Program l) : parse (programText l) = some (some l) := parse_program h

/-- C122: two programs with the same text are the same. -/
theorem C122_injective (l l' : List AndOr) (h : Program l) (h' : Program l') (he : programText l = programText l') :
    l = l' := by
  have h1 := parse_program h
  rw [he, parse_program h'] at h1
  cases h1
  rfl

theorem tokens_of_parse {t : Str} {v : CompleteCommand} (h : parse t = some v) :
    ∃ ts, toks t = some ts ∧ Derives .completeCommand ts v := by
  unfold parse at h
  obtain ⟨ts, h1, h2⟩ := Option.bind_eq_some_iff.1 h
  rw [lex_toks] at h1
  exact ⟨ts, h1, parseTokens_sound h2⟩

/-- C122: every text that is accepted, and in which no quotation or substitution is left open, has the tree of a
program; and so written out it is read as the same program. -/
theorem C122_tree (t : Str) (l : List AndOr) (h : parse t = some (some l))
    (hw : ∀ ts s, lex t = some ts → .word s ∈ ts → ¬ Unclosed s) :
    Program l ∧ parse (programText l) = parse t := by
  obtain ⟨ts, h1, h2⟩ := tokens_of_parse h
  have hl : Program l := valOk h2 (fun x hx => by
    rcases toks_words h1 x hx with h | ⟨s, pre, rfl, hs, -⟩
    · exact h
    · exact absurd hs (hw ts s (by rw [lex_toks]; exact h1) hx)) l rfl
  exact ⟨hl, by rw [parse_program hl, h]⟩

/-- C122: the words found in a text are whole words, with one exception: a quotation or substitution without end, which
is the end of the text. -/
theorem C122_words (t : Str) (ts : List Token) (h : lex t = some ts) (s : Str) (hs : .word s ∈ ts) :
    OneWord s ∨ Unclosed s ∧ ∃ before, t = before ++ s := by
  rw [lex_toks] at h
  rcases toks_words h _ hs with h | ⟨w, pre, e, hw, ht⟩
  · exact .inl h
  · cases e
    exact .inr ⟨hw, pre, ht⟩

/-- The two are different things. -/
theorem C122_exclusive (s : Str) (h : OneWord s) : ¬ Unclosed s := by
  intro hu
  cases h with
  | plain h1 h2 h3 =>
    cases hu with
    | quoted hq => exact absurd hq (by
        intro hq
        simp only [List.mem_cons, List.not_mem_nil, or_false] at hq h2
        rcases hq with rfl | rfl | rfl
        · exact h2 (.inr (.inl rfl))
        · exact h2 (.inr (.inr rfl))
        · exact absurd (h1 '`' List.mem_cons_self) (by decide))
    | subst => exact absurd (h1 '$' List.mem_cons_self) (by decide)
  | dollar h1 =>
    cases hu with
    | quoted hq => simp at hq
    | subst => exact absurd (h1 '(' List.mem_cons_self) (by decide)
  | quoted h1 h2 =>
    generalize hx : _ :: (_ ++ [_]) = x at hu
    cases hu with
    | quoted _ hq =>
      simp only [List.cons.injEq] at hx
      obtain ⟨rfl, rfl⟩ := hx
      simp at hq
    | subst =>
      simp only [List.cons.injEq] at hx
      rw [hx.1] at h1
      simp at h1
  | subst h1 =>
    cases hu with
    | quoted hq => simp at hq
    | subst h => simp at h

/-- C122: at the prompt, in a script or on standard input the text written out does what the original does. -/
theorem C122_effect (w : World) (n : Nat) (t : Str) (l : List AndOr) (h : parse t = some (some l))
    (hw : ∀ ts s, lex t = some ts → .word s ∈ ts → ¬ Unclosed s) :
    interactiveLine w n (programText l) = interactiveLine w n t ∧
    scriptLine w n (programText l) = scriptLine w n t := by
  obtain ⟨-, he⟩ := C122_tree t l h hw
  have h1 : t ≠ [] := by
    rintro rfl
    rw [show parse [] = some none from rfl] at h
    cases h
  have h2 : programText l ≠ [] := by
    intro hl
    rw [hl, show parse [] = some none from rfl, h] at he
    cases he
  refine ⟨?_, ?_⟩
  · unfold interactiveLine
    rw [if_neg h1, if_neg h2, he, h]
  · unfold scriptLine
    rw [he]

/-- A program with everything in it, and how it is written out. -/
example : (parse (cs!"X=1 2>err cmd a>out b=c 'd e'|f  && ! g\nfn(){ { x ; };y $(ls *)& } >> log; z")).map
    (fun v => v.map fun l => programText l) =
    some (some (cs!" 2> err X=1 cmd > out a b=c 'd e' | f && ! g ; fn ( ) { { x } ; y $(ls *) & } >> log ; z")) := by
  decide +kernel

/-- The hypotheses of `C122_tree` are met by it. -/
example : ∃ l, parse (cs!"f(){ a|b 2>c; } ; f && 'x y'") = some (some l) ∧
    ∀ ts s, lex (cs!"f(){ a|b 2>c; } ; f && 'x y'") = some ts → .word s ∈ ts → ¬ Unclosed s := by
  refine ⟨_, rfl, ?_⟩
  intro ts s h hs
  have hl : lex (cs!"f(){ a|b 2>c; } ; f && 'x y'") = some [.word (cs!"f"), .lparen, .rparen, .lbrace, .word (cs!"a"), .pipe,
    .word (cs!"b"), .number 2, .great, .word (cs!"c"), .semi, .rbrace, .semi, .word (cs!"f"), .and, .word (cs!"'x y'"), .eof] := by
    decide +kernel
  rw [hl] at h
  cases h
  simp only [List.mem_cons, Token.word.injEq, List.not_mem_nil, or_false, reduceCtorEq, false_or] at hs
  rcases hs with rfl | rfl | rfl | rfl | rfl | rfl <;> rintro (⟨h1, h2⟩ | h1) <;> simp_all

/-- An open quotation is what makes the difference: the file is written before the arguments, which then belong to the
quotation. -/
example : ∃ l, parse (cs!"a b > \"f") = some (some l) ∧ parse (programText l) ≠ some (some l) := by
  refine ⟨_, rfl, fun h => ?_⟩
  exact absurd (congrArg (Option.map (Option.map programLexemes)) h) (by decide +kernel)

end Rsh
