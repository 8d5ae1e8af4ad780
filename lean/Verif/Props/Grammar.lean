import Verif.Spec.Grammar
import Verif.Proofs.Parser
import Verif.Props.Lexer
import Verif.Proofs.Line

/-!
# Properties of the grammar: C08-C14
-/

namespace Rsh

open Spec

/-! ## C08 -/

/-- C08: the parser finds a tree exactly when the grammar derives it, and there is at most one. -/
theorem C08_unambiguous (ts : List Token) :
    (∀ v, parseTokens ts = some v ↔ Derives .completeCommand ts v) ∧
    (∀ v v', Derives .completeCommand ts v → Derives .completeCommand ts v' → v = v') := by
  refine ⟨fun v => parseTokens_iff, fun v v' h h' => ?_⟩
  have := (parseTokens_complete h).symm.trans (parseTokens_complete h')
  exact Option.some.inj this

/-- C08 for texts: an input is rejected exactly when the lexer rejects it or the grammar derives
no tree for its tokens. -/
theorem C08_parse_none (s : Str) :
    parse s = none ↔ lex s = none ∨ ∃ ts, lex s = some ts ∧ ∀ v, ¬ Derives .completeCommand ts v := by
  unfold parse
  cases h : lex s with
  | none => simp
  | some ts =>
    simp only [Option.bind_some]
    constructor
    · intro hp
      refine .inr ⟨ts, rfl, fun v hv => ?_⟩
      rw [parseTokens_complete hv] at hp; cases hp
    · rintro (h | ⟨ts', e, h⟩)
      · cases h
      · cases e
        cases hp : parseTokens ts with
        | none => rfl
        | some v => exact absurd (parseTokens_sound hp) (h v)

example : ∃ v, Derives .completeCommand [.word (cs!"a"), .pipe, .word (cs!"b"), .eof] v :=
  ⟨_, parseTokens_sound rfl⟩
example : ∀ v, ¬ Derives .completeCommand [.word (cs!"a"), .pipe, .eof] v := by
  intro v h
  have := parseTokens_complete h
  exact absurd this (by rw [show parseTokens [.word (cs!"a"), .pipe, .eof] = none from rfl]; simp)

/-! ## C09 -/

theorem pipe_derives (c : List Token × Command) (cs : List (List Token × Command))
    (h : Derives .command c.1 c.2) (hs : ∀ d ∈ cs, Derives .command d.1 d.2) :
    Derives .pipeline (pipeTokens c cs) (pipeOf c cs) := by
  refine .plSeq ?_
  unfold pipeTokens
  induction cs using snocInd with
  | nil => simpa using .psOne h
  | snoc cs d ih =>
    have := ih (fun d hd => hs d (List.mem_append_left _ hd))
    have h2 := hs d (by simp)
    simpa [List.flatMap_append] using Derives.psSnoc this h2

theorem chain_derives (c : List Token × Command) (cs : List (List Token × Command)) (l : List Link)
    (h : Derives .command c.1 c.2) (hs : ∀ d ∈ cs, Derives .command d.1 d.2)
    (hl : ∀ k ∈ l, Derives .command k.first.1 k.first.2 ∧ ∀ d ∈ k.others, Derives .command d.1 d.2) :
    Derives .andOr (chainTokens c cs l) (chainTree c cs l) := by
  unfold chainTokens chainTree
  induction l using snocInd with
  | nil => simpa using .aoOne (pipe_derives c cs h hs)
  | snoc l k ih =>
    have := ih (fun d hd => hl d (List.mem_append_left _ hd))
    obtain ⟨h1, h2⟩ := hl k (by simp)
    have hp := pipe_derives _ _ h1 h2
    rw [List.foldl_append, List.flatMap_append, ← List.append_assoc]
    simp only [List.foldl_cons, List.foldl_nil, List.flatMap_cons, List.flatMap_nil, List.append_nil]
    rw [← List.append_assoc]
    obtain ⟨op, nl, f, os⟩ := k
    cases op <;> cases nl
    · exact .aoAnd this hp
    · exact .aoAndNl this hp
    · exact .aoOr this hp
    · exact .aoOrNl this hp

/-- C09: a chain of pipelines joined by `&&` and `||` (in any order, each optionally followed by a
newline) parses to the left-nested tree, `|` binding tighter than both. -/
theorem C09_left_chain (c : List Token × Command) (cs : List (List Token × Command)) (l : List Link)
    (h : Derives .command c.1 c.2) (hs : ∀ d ∈ cs, Derives .command d.1 d.2)
    (hl : ∀ k ∈ l, Derives .command k.first.1 k.first.2 ∧ ∀ d ∈ k.others, Derives .command d.1 d.2) :
    parseTokens (chainTokens c cs l ++ [.eof]) = some (some [chainTree c cs l]) :=
  parseTokens_complete (.ccListSep (.listOne (chain_derives c cs l h hs hl)) .sepEof)

/-- The hypotheses are met: `a | b && c || d | e`. -/
example : let w (s : Str) : List Token × Command := ([.word s], .simple ⟨none, s, none⟩)
    parse (cs!"a | b && c || d | e") =
      some (some [chainTree (w (cs!"a")) [w (cs!"b")]
        [⟨.and, false, w (cs!"c"), []⟩, ⟨.or, false, w (cs!"d"), [w (cs!"e")]⟩]]) := by
  intro w
  have hw : ∀ s, Derives .command (w s).1 (w s).2 := fun s => .cmdSimple (.scName .cmdNameWord)
  have hlex : lex (cs!"a | b && c || d | e") = some (chainTokens (w (cs!"a")) [w (cs!"b")]
      [⟨.and, false, w (cs!"c"), []⟩, ⟨.or, false, w (cs!"d"), [w (cs!"e")]⟩] ++ [.eof]) := by decide
  unfold parse
  rw [hlex, Option.bind_some]
  refine C09_left_chain _ _ _ (hw _) ?_ ?_
  · intro d hd; simp only [List.mem_singleton] at hd; subst hd; exact hw _
  · intro k hk
    simp only [List.mem_cons, List.not_mem_nil, or_false] at hk
    rcases hk with rfl | rfl
    · exact ⟨hw _, by simp⟩
    · refine ⟨hw _, ?_⟩
      intro d hd; simp only [List.mem_singleton] at hd; subst hd; exact hw _

/-! ## C10 -/

theorem balanced_derives {n ts v} (h : Derives n ts v) :
    ∀ d rest, balanced d (ts ++ rest) = balanced d rest := by
  induction h with
  | brace _ ih =>
    intro d rest
    simp [balanced, ih]
  | _ => intro d rest; simp_all [balanced]

/-- C10: in every accepted token sequence braces are balanced and parentheses occur only as `()`. -/
theorem C10_balanced (ts : List Token) (v : CompleteCommand) (h : parseTokens ts = some v) :
    balanced 0 ts = true := by
  have := balanced_derives (parseTokens_sound h) 0 []
  simpa [balanced] using this

example : (parse (cs!"f() { a; { b; }; }")).isSome = true := by decide +kernel
example : balanced 0 [.lbrace, .word (cs!"a"), .lparen, .rparen, .rbrace] = true := rfl
example : balanced 0 [.lbrace, .word (cs!"a"), .lparen, .word (cs!"b"), .rparen, .rbrace] = false := rfl

/-! ## C11 -/

/-- The last token satisfies `p`. -/
def endOk (p : Token → Bool) : List Token → Bool
  | [] => false
  | [t] => p t
  | _ :: ts => endOk p ts

theorem endOk_cons {p t b} (h : endOk p b = true) : endOk p (t :: b) = true := by
  cases b with
  | nil => simp [endOk] at h
  | cons u b => exact h

theorem endOk_append {p a b} (h : endOk p b = true) : endOk p (a ++ b) = true := by
  induction a with
  | nil => exact h
  | cons t a ih => exact endOk_cons ih

theorem endOk_snoc {p : Token → Bool} {a t} (h : p t = true) : endOk p (a ++ [t]) = true := endOk_append h

theorem endOk_snoc_iff {p : Token → Bool} {a t} : endOk p (a ++ [t]) = p t := by
  induction a with
  | nil => rfl
  | cons u a ih => cases a <;> simp_all [endOk]

theorem not_end_eof {n ts v} (h : Derives n ts v) : n ∉ [NT.completeCommand, .separator, .compoundList] →
    endOk (· != .eof) ts = true := by
  induction h <;> simp_all [endOk_append, endOk_cons, endOk_snoc, endOk]

/-- C11 fails: no program that begins with a separator (blank line, comment line, `;`) is accepted
as anything but the empty program, so a leading blank line makes every non-empty program a syntax
error. -/
theorem C11_leading_separator_rejected (s : Str) (t : Token) (ts : List Token) (v : CompleteCommand)
    (hlex : lex s = some (t :: ts)) (ht : t = .newlineList ∨ t = .semi) (h : parse s = some v) :
    v = none := by
  have hsep : isSepTok t = true := by rcases ht with rfl | rfl <;> rfl
  unfold parse at h
  rw [hlex, Option.bind_some] at h
  obtain ⟨l, el, _⟩ := C01_lex_eof s _ hlex
  have hstart : ∀ a k r, Derives .list a k → t :: ts = a ++ r → False := by
    intro a k r hk e
    obtain ⟨x, a', rfl, hx, _⟩ := starts_head (list_start hk)
    simp at e
    rw [← e.1, hsep] at hx; cases hx
  generalize hx : t :: ts = x at h
  have hd := parseTokens_sound h
  cases hd with
  | @ccSepList a b l h1 h2 =>
    have := not_end_eof h2 (by simp)
    have := endOk_append (a := a) this
    rw [← hx, el, endOk_snoc_iff] at this
    simp at this
  | ccListSep h1 h2 => exact (hstart _ _ _ h1 hx).elim
  | ccList h1 => exact (hstart _ _ [] h1 (by simpa using hx)).elim
  | ccSep _ => rfl

/-- Witness: the program `ls` is accepted, `ls` after a blank line, a comment line or a `;` is not. -/
theorem C11_counterexample :
    (parse (cs!"ls")).isSome = true ∧ parse (cs!"\nls") = none ∧ parse (cs!"# hi\nls") = none ∧
    parse (cs!";ls") = none := by
  refine ⟨rfl, rfl, rfl, rfl⟩

/-- C11, the part that holds: a text of blanks, comments and at most one line end is accepted as the
empty program; and where a brace group begins, a leading newline is accepted and changes nothing.
Missing: a blank line, comment line or `;` in front of a non-empty program, which is rejected
(`C11_leading_separator_rejected`). -/
theorem C11_blank_partial :
    (∀ s, lex s = some [.eof] ∨ lex s = some [.newlineList, .eof] ∨
        lex s = some [.newlineList, .newlineList, .eof] → parse s = some none) ∧
    (∀ a l, Derives .compoundList a l → a.head? ≠ some .newlineList →
      Derives .compoundCommand (.lbrace :: .newlineList :: a ++ [.rbrace]) (.braceGroup l)) := by
  constructor
  · rintro s (h | h | h) <;> unfold parse <;> rw [h] <;> rfl
  · intro a l h hn
    cases h with
    | clTerm h => exact .ccBrace (.brace (.clNlTerm h))
    | clNlTerm h => simp at hn
    | clTermSep h k => 
      have := Derives.ccBrace (.brace (.clNlTermSep h k))
      simpa using this
    | clNlTermSep h k => simp at hn

example : parse (cs!"  # only a comment\n") = some none := by rfl
example : parse (cs!"") = some none := by rfl

/-! ## C12 -/

/-- C12, the part that holds: a list may be followed by `;`, by one or two line-end tokens (the lexer
joins adjacent line ends), or by `;` and two line-end tokens, without changing its meaning.
Missing: `;` directly followed by one line end (`C12_semi_newline_rejected`). -/
theorem C12_trailing_partial (a : List Token) (l : List AndOr) (h : Derives .list a l) :
    parseTokens (a ++ [.eof]) = some (some l) ∧
    parseTokens (a ++ [.semi, .eof]) = some (some l) ∧
    parseTokens (a ++ [.newlineList, .eof]) = some (some l) ∧
    parseTokens (a ++ [.newlineList, .newlineList, .eof]) = some (some l) ∧
    parseTokens (a ++ [.semi, .newlineList, .newlineList, .eof]) = some (some l) := by
  refine ⟨?_, ?_, ?_, ?_, ?_⟩ <;> apply parseTokens_complete <;> exact .ccListSep h (by constructor)

/-- C12 fails: no accepted program ends with `;` and one line end, whatever precedes. -/
theorem C12_semi_newline_rejected (a : List Token) (l : List AndOr) (h : Derives .list a l) :
    parseTokens (a ++ [.semi, .newlineList, .eof]) = none := by
  have hl := pListEnd_complete h (r := [.semi, .newlineList, .eof]) (.inl rfl)
  obtain ⟨t, a', rfl, ht, _⟩ := starts_head (list_start h)
  unfold parseTokens
  rw [show List.takeWhile isSepTok (t :: a' ++ [.semi, .newlineList, .eof]) = [] by simp [ht],
    show List.dropWhile isSepTok (t :: a' ++ [.semi, .newlineList, .eof])
      = t :: a' ++ [.semi, .newlineList, .eof] by simp [ht]]
  simp only [hl, Option.bind_some]
  rfl

/-- Witness as texts. -/
theorem C12_counterexample : (parse (cs!"ls")).isSome = true ∧ (parse (cs!"ls;")).isSome = true ∧
    (parse (cs!"ls\n")).isSome = true ∧ parse (cs!"ls;\n") = none := ⟨rfl, rfl, rfl, rfl⟩

/-! ## C13 -/

/-- Nonterminals that may end with `&`. -/
def ampNT : NT → Bool
  | .completeCommand | .list | .andOr | .pipeline | .term | .compoundList | .cmdBackgroundOp => true
  | _ => false

/-- Is the token `&`? -/
def isAmp : Token → Bool
  | .amp => true
  | _ => false

/-- `noAmpCommand` with the information whether the previous token was `&`. -/
def scanAmp : Bool → List Token → Bool
  | _, [] => true
  | b, t :: ts => !(b && beginsCommand t) && scanAmp (isAmp t) ts

/-- Whether the last token is `&`. -/
def endAmp : Bool → List Token → Bool
  | b, [] => b
  | _, t :: ts => endAmp (isAmp t) ts

theorem scanAmp_append (b : Bool) (x y : List Token) :
    scanAmp b (x ++ y) = (scanAmp b x && scanAmp (endAmp b x) y) := by
  induction x generalizing b with
  | nil => simp [scanAmp, endAmp]
  | cons t x ih => simp [scanAmp, endAmp, ih, Bool.and_assoc]

theorem endAmp_append (b : Bool) (x y : List Token) : endAmp b (x ++ y) = endAmp (endAmp b x) y := by
  induction x generalizing b with
  | nil => rfl
  | cons t x ih => simp [endAmp, ih]

theorem noAmp_scan (ts : List Token) : noAmpCommand ts = scanAmp false ts := by
  have key : ∀ ts : List Token, noAmpCommand ts = scanAmp false ts ∧
      noAmpCommand (.amp :: ts) = scanAmp true ts := by
    intro ts
    induction ts with
    | nil => exact ⟨rfl, rfl⟩
    | cons t ts ih =>
      have h1 : noAmpCommand (t :: ts) = scanAmp (isAmp t) ts := by
        by_cases h : t = .amp
        · subst h; exact ih.2
        · rw [show (isAmp t) = false by cases t <;> first | rfl | exact absurd rfl h, ← ih.1]
          cases ts <;> cases t <;> first | rfl | exact absurd rfl h
      constructor
      · rw [h1]; simp [scanAmp]
      · rw [noAmpCommand, h1]; simp [scanAmp]
  exact (key ts).1

theorem noAmp_derives {n ts v} (h : Derives n ts v) :
    scanAmp false ts = true ∧ (ampNT n = false → ∀ b, endAmp b ts = false) ∧
      (n = .separator ∨ n = .cmdSepOp ∨ n = .cmdBackgroundOp → ∀ b, scanAmp b ts = true) := by
  induction h <;> simp_all [scanAmp, endAmp, scanAmp_append, endAmp_append, ampNT, beginsCommand, isAmp,
    -Bool.forall_bool]

/-- C13 fails: in no accepted token sequence does a command directly follow `&`; `a & b` is a syntax
error for all commands `a` and `b`. -/
theorem C13_amp_command_rejected (ts : List Token) (v : CompleteCommand) (h : parseTokens ts = some v) :
    noAmpCommand ts = true := by
  rw [noAmp_scan]; exact (noAmp_derives (parseTokens_sound h)).1

/-- Witness. -/
theorem C13_counterexample : (parse (cs!"a")).isSome = true ∧ (parse (cs!"b")).isSome = true ∧
    parse (cs!"a & b") = none := ⟨rfl, rfl, rfl⟩

/-- C13, the part that holds: with a `;` or line end between them, `a & ; b` is the list of the
background pipeline `a` and the and-or chain `b`.  Missing: `a & b` itself, which is rejected
(`C13_amp_command_rejected`). -/
theorem C13_amp_sep_partial (a b : List Token) (cs : List Command) (x : AndOr)
    (ha : Derives .pipelineSeq a cs) (hb : Derives .andOr b x) :
    parseTokens (a ++ [.amp, .semi] ++ b ++ [.eof]) = some (some [.mk none none (.mk false cs true), x]) ∧
    parseTokens (a ++ [.amp, .newlineList] ++ b ++ [.eof])
      = some (some [.mk none none (.mk false cs true), x]) := by
  have h1 := Derives.listOne (.aoOne (.plBg ha .bgOp))
  have h2 := Derives.ccListSep (.listSnoc h1 .sepOpSemi hb) .sepEof
  have h3 := Derives.ccListSep (.listSnoc h1 .sepOpNl hb) .sepEof
  constructor
  · simpa using parseTokens_complete h2
  · simpa using parseTokens_complete h3

example : Derives .pipelineSeq [.word (cs!"a")] [.simple ⟨none, cs!"a", none⟩] :=
  .psOne (.cmdSimple (.scName .cmdNameWord))

/-! ## C14 -/

theorem noReserved_derives {n ts v} (h : Derives n ts v) : ∀ t ∈ ts, t ∉ reservedTokens := by
  have e : ∀ t : Token, (t ∉ reservedTokens) = (reservedTokens.contains t = false) := by
    intro t; simp
  simp only [e]
  induction h <;> simp_all [or_imp, forall_and] <;> simp [reservedTokens]

/-- C14 fails: no accepted program contains a reserved-word token, in any position. -/
theorem C14_reserved_rejected (ts : List Token) (v : CompleteCommand) (h : parseTokens ts = some v) :
    ∀ t ∈ ts, t ∉ reservedTokens := noReserved_derives (parseTokens_sound h)

/-- C14 fails for every position: a line of words one of which is a reserved word is rejected,
whatever the other words are. -/
theorem C14_reserved_line_rejected (l r : List (Str × Str)) (b w trail : Str) (hw : w ∈ reserved)
    (hl : ∀ p ∈ l ++ r, PlainWord p.2 ∨ p.2 ∈ reserved)
    (h : LineOk (l ++ (b, w) :: r) trail) : parse (line (l ++ (b, w) :: r) trail) = none := by
  have hex : ∀ x : Str, ∃ t, (PlainWord x ∨ x ∈ reserved → LexesTo x t) ∧
      (x ∈ reserved → t ∈ reservedTokens) := by
    intro x
    by_cases hx : x ∈ reserved
    · obtain ⟨t, h1, h2⟩ := lexesTo_reserved hx
      exact ⟨t, fun _ => h2, fun _ => h1⟩
    · exact ⟨.word x, fun h => lexesTo_plain (h.resolve_right hx), fun h => absurd h hx⟩
  obtain ⟨f, hf⟩ := Classical.axiomOfChoice hex
  have hlex := lex_line (l ++ (b, w) :: r) trail f (by
    intro p hp
    refine (hf p.2).1 ?_
    simp only [List.mem_append, List.mem_cons] at hp
    rcases hp with hp | rfl | hp
    · exact hl p (by simp [hp])
    · exact .inr hw
    · exact hl p (by simp [hp])) h
  unfold parse
  rw [hlex, Option.bind_some]
  cases hp : parseTokens _ with
  | none => rfl
  | some v => exact absurd ((hf w).2 hw) (C14_reserved_rejected _ v hp (f w) (by simp))

/-- Witness: `echo done`. -/
theorem C14_counterexample : parse (cs!"echo done") = none ∧ (parse (cs!"echo don")).isSome = true :=
  ⟨rfl, rfl⟩

/-- C14, the part that holds: the arguments of a command may be any plain words and any quoted texts
(so a quoted reserved word), which all reach the command.  Missing: unquoted reserved words, which
make the line a syntax error (`C14_reserved_line_rejected`). -/
theorem C14_arguments_partial (b0 : Str) (w0 : Typed) (l : List (Str × Typed)) (trail : Str)
    (h0 : w0.Ok) (hl : ∀ p ∈ l, p.2.Ok)
    (h : LineOk ((b0, w0.text) :: l.map fun p => (p.1, p.2.text)) trail) :
    ∃ sf, parse (line ((b0, w0.text) :: l.map fun p => (p.1, p.2.text)) trail)
      = some (some [.mk none none (.mk false [.simple ⟨none, w0.text, sf⟩] false)]) ∧
      (match sf with | none => [] | some s => s.word) = l.map (fun p => p.2.text) := by
  refine ⟨_, parse_line b0 w0 l trail h0 hl h, ?_⟩
  cases l <;> rfl

example : ∃ sf, parse (cs!"echo 'done' for2") =
    some (some [.mk none none (.mk false [.simple ⟨none, cs!"echo", sf⟩] false)]) := ⟨_, rfl⟩
example : LineOk [([], cs!"echo"), (cs!" ", (Typed.single (cs!"done")).text)] [] :=
  ⟨by decide, by decide, by decide⟩

end Rsh
