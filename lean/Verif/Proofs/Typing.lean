import Verif.Proofs.Line
import Verif.Proofs.Digits
import Verif.Spec.Line

/-!
# Lexing and parsing whole command lines
-/

namespace Rsh

open Spec

/-- The text gives the tokens wherever a blank or the end of the input follows. -/
def Gives (x : Str) (ts : List Token) : Prop :=
  ∀ rest : Str, (∀ c, rest.head? = some c → Blank c) → toks (x ++ rest) = (toks rest).map (ts ++ ·)

theorem LexesTo.gives {x : Str} {t : Token} (h : LexesTo x t) : Gives x [t] := h

theorem lex_gives (l : List (Str × List Token)) (h : ∀ p ∈ l, Gives p.1 p.2) :
    lex (line (l.map fun p => ([' '], p.1)) []) = some (l.flatMap Prod.snd ++ [.eof]) := by
  rw [lex_toks]
  induction l with
  | nil => exact toks_nil
  | cons q l ih =>
    have hih := ih fun p hp => h p (List.mem_cons_of_mem _ hp)
    have e : line ((q :: l).map fun p => ([' '], p.1)) [] =
      [' '] ++ (q.1 ++ line (l.map fun p => ([' '], p.1)) []) := by simp [line]
    rw [e, toks_blanks [' '] _ (by decide), h q List.mem_cons_self _ ?_, hih]
    · simp
    · intro c hc
      cases l with
      | nil => simp [line] at hc
      | cons p l =>
        simp [line] at hc
        subst hc
        decide

/-! ## Tokens -/

theorem gives_typed {t : Typed} (h : t.Ok) : Gives t.text [.word t.text] := (lexesTo_typed h).gives

theorem typed_head {t : Typed} (h : t.Ok) : ∃ c cs, t.text = c :: cs ∧ c ∉ ['>', '<', '&', '|', '='] := by
  cases t with
  | plain w =>
    cases w with
    | nil => exact absurd rfl h.1
    | cons c cs =>
      refine ⟨c, cs, rfl, fun e => (h.2.1 c List.mem_cons_self).2 ?_⟩
      revert e
      simp only [special, List.mem_cons, List.not_mem_nil, or_false]
      rintro (rfl | rfl | rfl | rfl | rfl) <;> simp
  | mixed w =>
    cases w with
    | nil => exact absurd rfl (mixedWord_parts h).1
    | cons c cs =>
      refine ⟨c, cs, rfl, fun e => mixedWord_head (c := c) h ?_ rfl⟩
      revert e
      simp only [special, List.mem_cons, List.not_mem_nil, or_false]
      rintro (rfl | rfl | rfl | rfl | rfl) <;> simp
  | single t => exact ⟨_, _, rfl, by decide⟩
  | double t => exact ⟨_, _, rfl, by decide⟩
  | var n => exact ⟨_, _, rfl, by decide⟩
  | subst t => exact ⟨_, _, rfl, by decide⟩
  | backtick t => exact ⟨_, _, rfl, by decide⟩

theorem scanT_eq (cs : Str) : toks ('=' :: cs) = (toks cs).map (.eq :: ·) := by
  refine toks_of_tok (s := '=' :: cs) (k := []) (raw := ['=']) (n := 1) ?_
  rfl

theorem toks_pair {c : Char} {cs : Str} {alts : List (Char × Token)} {t : Token}
    (hs : scanT (c :: cs) = scanPair c alts t cs) (h : ∀ d, cs.head? = some d → alts.lookup d = none) :
    toks (c :: cs) = (toks cs).map (t :: ·) := by
  cases cs with
  | nil => exact toks_of_tok hs
  | cons d cs =>
    rw [scanPair, h d rfl] at hs
    exact toks_of_tok hs

theorem lookup_ne {d : Char} {alts : List (Char × Token)} (h : d ∉ alts.map Prod.fst) :
    alts.lookup d = none := by
  induction alts with
  | nil => rfl
  | cons a as ih =>
    simp only [List.map_cons, List.mem_cons, not_or] at h
    rw [List.lookup_cons]
    rw [show (d == a.1) = false from beq_eq_false_iff_ne.2 h.1]
    exact ih h.2

theorem blank_not {c d : Char} (h : Blank c) (hd : isWs d = false) : c ≠ d := blank_ne h hd

theorem lookup_blank {rest : Str} (hr : ∀ c, rest.head? = some c → Blank c) {alts : List (Char × Token)}
    (ha : ∀ a ∈ alts, isWs a.1 = false) : ∀ d, rest.head? = some d → alts.lookup d = none := by
  intro d hd
  apply lookup_ne
  intro hm
  obtain ⟨a, h1, rfl⟩ := List.mem_map.1 hm
  exact blank_not (hr _ hd) (ha a h1) rfl

/-- The tokens of an operator. -/
theorem gives_bang : Gives (cs!"!") [.bang] := fun rest _ =>
  toks_of_tok (s := '!' :: rest) (k := []) (raw := ['!']) (n := 1) rfl

theorem gives_semi : Gives (cs!";") [.semi] := fun rest _ =>
  toks_of_tok (s := ';' :: rest) (k := []) (raw := [';']) (n := 1) rfl

theorem gives_pipe : Gives (cs!"|") [.pipe] := fun rest hr =>
  toks_pair (c := '|') (cs := rest) (alts := [('|', .or)]) rfl (lookup_blank hr (by decide))

theorem gives_amp : Gives (cs!"&") [.amp] := fun rest hr =>
  toks_pair (c := '&') (cs := rest) (alts := [('&', .and)]) rfl (lookup_blank hr (by decide))

theorem gives_or : Gives (cs!"||") [.or] := fun rest _ =>
  toks_of_tok (s := '|' :: '|' :: rest) (k := []) (raw := ['|', '|']) (n := 1) rfl

theorem gives_and : Gives (cs!"&&") [.and] := fun rest _ =>
  toks_of_tok (s := '&' :: '&' :: rest) (k := []) (raw := ['&', '&']) (n := 1) rfl

theorem toks_number {n : Int} (hn : -2147483648 ≤ n ∧ n ≤ 2147483647) {c : Char} (hc : c = '<' ∨ c = '>') (rest : Str) :
    toks (intStr n ++ c :: rest) = (toks (c :: rest)).map (.number n :: ·) := by
  have hch : ∀ d ∈ intStr n, wordHead d = true := by
    intro d hd
    rcases intStr_chars hd with rfl | hd
    · decide
    · have := isDigit10_mem hd
      simp only [List.mem_cons, List.not_mem_nil, or_false] at this
      rcases this with rfl | rfl | rfl | rfl | rfl | rfl | rfl | rfl | rfl | rfl | rfl | rfl <;> decide
  have hall : (intStr n).all isWordContinue = true := by
    rw [List.all_eq_true]
    intro d hd
    have := hch d hd
    simp only [wordHead, Bool.and_eq_true] at this
    exact this.1.1.1
  rw [toks_word (intStr n) (c :: rest) (intStr_ne n) ?_ hall ?_]
  · congr 1
    funext l
    congr 1
    have h1 : intStr n ∉ reserved := by
      intro hm
      have key : ∀ w ∈ reserved, ∃ d ∈ w, ¬ (d = '-' ∨ isDigit10 d = true) := by decide
      obtain ⟨d, hd, hd'⟩ := key _ hm
      exact hd' (intStr_chars hd)
    simp only [reserved, List.mem_cons, List.not_mem_nil, or_false, not_or] at h1
    obtain ⟨h1, h2, h3, h4, h5, h6, h7, h8, h9, h10, h11, h12⟩ := h1
    unfold wordToken
    rw [if_neg h1, if_neg h2, if_neg h3, if_neg h4, if_neg h5, if_neg h6, if_neg h7, if_neg h8,
      if_neg h9, if_neg h10, if_neg h11, if_neg h12]
    simp [numOrWord, hc, parseI32_intStr hn]
  · cases h : intStr n with
    | nil => rfl
    | cons d ds => exact hch d (by rw [h]; exact List.mem_cons_self)
  · rcases hc with rfl | rfl <;> rfl

/-! ## Parts -/

/-- The token of the operator of a redirection. -/
def redirTokens : RedirectType → List Token
  | .input => [.less]
  | .output => [.great]
  | .append => [.dgreat]
  | .clobber => []

/-- The tokens of a part. -/
def Spec.Part.tokens : Part → List Token
  | .arg t => [.word t.text]
  | .assign x t => [.word x, .eq, .word t.text]
  | .redir none op t => redirTokens op ++ [.word t.text]
  | .redir (some n) op t => (redirTokens op).flatMap (fun k => [.number n, k]) ++ [.word t.text]

theorem gives_redir {op : RedirectType} {t : Typed} (h1 : op ≠ .clobber) (h2 : t.Ok) :
    Gives (opText op ++ t.text) (redirTokens op ++ [.word t.text]) := by
  intro rest hr
  obtain ⟨c, cs, hc, hn⟩ := typed_head h2
  have hh : ∀ d, (t.text ++ rest).head? = some d → d = c := by
    rw [hc]
    intro d hd
    simpa using hd.symm
  cases op with
  | clobber => exact absurd rfl h1
  | input =>
    show toks ('<' :: (t.text ++ rest)) = _
    rw [toks_pair (alts := [('<', .dless), ('&', .lessAnd)]) (t := .less) rfl
      (fun d hd => lookup_ne (by rw [hh d hd]; simp at hn ⊢; simp [hn])), gives_typed h2 rest hr]
    simp [redirTokens, Function.comp_def]
  | output =>
    show toks ('>' :: (t.text ++ rest)) = _
    rw [toks_pair (alts := [('>', .dgreat), ('&', .greatAnd)]) (t := .great) rfl
      (fun d hd => lookup_ne (by rw [hh d hd]; simp at hn ⊢; simp [hn])), gives_typed h2 rest hr]
    simp [redirTokens, Function.comp_def]
  | append =>
    show toks ('>' :: '>' :: (t.text ++ rest)) = _
    rw [toks_of_tok (s := '>' :: '>' :: (t.text ++ rest)) (k := []) (raw := ['>', '>']) (n := 1)
      (t := .dgreat) (x := t.text ++ rest) rfl, gives_typed h2 rest hr]
    simp [redirTokens, Function.comp_def]

theorem gives_part {p : Part} (h : p.Ok) : Gives p.text p.tokens := by
  rcases p with t | ⟨x, t⟩ | ⟨_ | n, op, t⟩
  · exact gives_typed h
  · intro rest hr
    obtain ⟨h1, h2⟩ : PlainWord x ∧ t.Ok := h
    show toks ((x ++ '=' :: t.text) ++ rest) = _
    rw [List.append_assoc, toks_plain x _ h1 (by simp [isWordContinue]) (by simp),
      List.cons_append, scanT_eq, gives_typed h2 rest hr]
    simp [Part.tokens, Function.comp_def]
  · exact gives_redir h.1 h.2
  · obtain ⟨h1, h2, h3⟩ : op ≠ .clobber ∧ t.Ok ∧ -2147483648 ≤ n ∧ n ≤ 2147483647 := h
    intro rest hr
    obtain ⟨c, cs, hc, hcs⟩ : ∃ c cs, (c = '<' ∨ c = '>') ∧ opText op = c :: cs := by
      cases op with
      | clobber => exact absurd rfl h1
      | input => exact ⟨_, _, .inl rfl, rfl⟩
      | output => exact ⟨_, _, .inr rfl, rfl⟩
      | append => exact ⟨_, _, .inr rfl, rfl⟩
    have hg := gives_redir h1 h2 rest hr
    show toks ((intStr n ++ (opText op ++ t.text)) ++ rest) = _
    rw [hcs, List.cons_append, List.cons_append] at hg
    rw [hcs, List.append_assoc, List.cons_append, List.cons_append, toks_number h3 hc, hg]
    cases op with
    | clobber => exact absurd rfl h1
    | _ => simp [Part.tokens, redirTokens, Function.comp_def]

theorem redirsOf_append (a b : List Part) : redirsOf (a ++ b) = redirsOf a ++ redirsOf b := by
  induction a with
  | nil => rfl
  | cons p ps ih => cases p <;> simp [redirsOf, ih]

theorem wordsOf_append (a b : List Part) : wordsOf (a ++ b) = wordsOf a ++ wordsOf b := by
  induction a with
  | nil => rfl
  | cons p ps ih => cases p <;> simp [wordsOf, ih]

theorem derives_redir {num : Option Int} {op : RedirectType} {t : Typed} (h : Part.Ok (.redir num op t)) :
    Derives .ioRedirect (Part.tokens (.redir num op t)) ⟨num, some ⟨op, t.text⟩, none⟩ := by
  have hop : op ≠ .clobber := by cases num <;> exact h.1
  have hfile : Derives .ioFile (redirTokens op ++ [.word t.text]) ⟨op, t.text⟩ := by
    cases op with
    | clobber => exact absurd rfl hop
    | input => exact .fileIn .wordWord
    | output => exact .fileOut .wordWord
    | append => exact .fileApp .wordWord
  cases num with
  | none => exact .redir hfile
  | some n =>
    cases op with
    | clobber => exact absurd rfl hop
    | _ => exact .redirNum hfile

theorem derives_assign {x : Str} {t : Typed} :
    Derives .assignment (Part.tokens (.assign x t)) (x ++ '=' :: t.text) := .assign .wordWord

theorem derives_pre (ps : List Part) (hne : ps ≠ []) (h : ∀ p ∈ ps, p.Ok) (ha : ∀ t, .arg t ∉ ps) :
    Derives .pre (ps.flatMap Part.tokens) ⟨redirsOf ps, wordsOf ps⟩ := by
  induction ps using snocInd with
  | nil => exact absurd rfl hne
  | snoc ps p ih =>
    have hp := h p (by simp)
    rw [List.flatMap_append, redirsOf_append, wordsOf_append]
    simp only [List.flatMap_cons, List.flatMap_nil, List.append_nil]
    by_cases e : ps = []
    · subst e
      cases p with
      | arg t => exact absurd (by simp) (ha t)
      | assign x t => exact .preAssign derives_assign
      | redir num op t => exact .preRedir (derives_redir hp)
    · have := ih e (fun p hp => h p (List.mem_append_left _ hp)) (fun t ht => ha t (List.mem_append_left _ ht))
      cases p with
      | arg t => exact absurd (by simp) (ha t)
      | assign x t => simpa [redirsOf, wordsOf] using Derives.preSnocAssign this derives_assign
      | redir num op t => simpa [redirsOf, wordsOf] using Derives.preSnocRedir this (derives_redir hp)

theorem derives_suf (ps : List Part) (hne : ps ≠ []) (h : ∀ p ∈ ps, p.Ok) :
    Derives .suf (ps.flatMap Part.tokens) ⟨redirsOf ps, wordsOf ps⟩ := by
  induction ps using snocInd with
  | nil => exact absurd rfl hne
  | snoc ps p ih =>
    have hp := h p (by simp)
    rw [List.flatMap_append, redirsOf_append, wordsOf_append]
    simp only [List.flatMap_cons, List.flatMap_nil, List.append_nil]
    by_cases e : ps = []
    · subst e
      cases p with
      | arg t => exact .sufWord
      | assign x t => exact .sufAssign derives_assign
      | redir num op t => exact .sufRedir (derives_redir hp)
    · have := ih e (fun p hp => h p (List.mem_append_left _ hp))
      cases p with
      | arg t => simpa [redirsOf, wordsOf] using Derives.sufSnocWord this (b := Part.tokens (.arg t)) .wordWord
      | assign x t => simpa [redirsOf, wordsOf] using Derives.sufSnocAssign this derives_assign
      | redir num op t => simpa [redirsOf, wordsOf] using Derives.sufSnocRedir this (derives_redir hp)

/-! ## Commands -/

/-- The tokens of a command, lexeme by lexeme. -/
def Spec.TCmd.pieces (c : TCmd) : List (Str × List Token) :=
  c.before.map (fun p => (p.text, p.tokens)) ++
    (c.name.toList.map (fun t => (t.text, [.word t.text])) ++ c.after.map (fun p => (p.text, p.tokens)))

/-- The tokens of a command. -/
def Spec.TCmd.tokens (c : TCmd) : List Token := c.pieces.flatMap Prod.snd

theorem TCmd.pieces_text (c : TCmd) : c.pieces.map Prod.fst = c.lexemes := by
  simp [TCmd.pieces, TCmd.lexemes, Function.comp_def]

theorem TCmd.pieces_gives {c : TCmd} (h : c.Ok) : ∀ p ∈ c.pieces, Gives p.1 p.2 := by
  intro p hp
  simp only [TCmd.pieces, List.mem_append, List.mem_map, Option.mem_toList] at hp
  rcases hp with ⟨q, hq, rfl⟩ | ⟨t, ht, rfl⟩ | ⟨q, hq, rfl⟩
  · exact gives_part (h.before q hq)
  · exact gives_typed (h.name t ht)
  · exact gives_part (h.after q hq)

theorem TCmd.derives {c : TCmd} (h : c.Ok) : Derives .command c.tokens (.simple c.command) := by
  refine .cmdSimple ?_
  obtain ⟨before, name, after⟩ := c
  have hb := fun e => derives_pre before e h.before h.noArg
  have ha := fun e => derives_suf after e h.after
  have ht : TCmd.tokens ⟨before, name, after⟩ = before.flatMap Part.tokens ++
      (name.toList.map (fun t => Token.word t.text) ++ after.flatMap Part.tokens) := by
    simp [TCmd.tokens, TCmd.pieces, List.flatMap_append, List.flatMap_map]
    cases name <;> simp
  rw [ht]
  unfold TCmd.command
  cases name with
  | none =>
    obtain ⟨h1, h2⟩ := h.some rfl
    obtain rfl : after = [] := h2
    have h1 : before ≠ [] := h1
    simpa [h1] using Derives.scPre (hb h1)
  | some t =>
    by_cases h1 : before = [] <;> by_cases h2 : after = []
    · subst h1 h2
      simpa using Derives.scName (a := [.word t.text]) .cmdNameWord
    · subst h1
      simpa [h2] using Derives.scNameSuf (a := [.word t.text]) .cmdNameWord (ha h2)
    · subst h2
      simpa [h1] using Derives.scPreWord (b := [.word t.text]) (hb h1) .cmdWordWord
    · simpa [h1, h2] using Derives.scPreWordSuf (b := [.word t.text]) (hb h1) .cmdWordWord (ha h2)

/-! ## Pipelines -/

/-- The tokens of a pipeline, lexeme by lexeme. -/
def Spec.TPipe.pieces (p : TPipe) : List (Str × List Token) :=
  (if p.bang then [(cs!"!", [.bang])] else []) ++ (p.first.pieces ++
    (p.rest.flatMap (fun c => (cs!"|", [.pipe]) :: c.pieces) ++ (if p.background then [(cs!"&", [.amp])] else [])))

theorem TPipe.pieces_text (p : TPipe) : p.pieces.map Prod.fst = p.lexemes := by
  unfold TPipe.pieces TPipe.lexemes
  rw [List.map_append, List.map_append, List.map_append, TCmd.pieces_text, List.map_flatMap]
  congr 1
  · split <;> rfl
  · congr 2
    · congr 1
      funext c
      rw [List.map_cons, TCmd.pieces_text]
    · split <;> rfl

theorem TPipe.pieces_gives {p : TPipe} (h : ∀ c ∈ p.cmds, c.Ok) : ∀ x ∈ p.pieces, Gives x.1 x.2 := by
  intro x hx
  simp only [TPipe.pieces, List.mem_append, List.mem_flatMap, List.mem_cons] at hx
  rcases hx with hx | hx | ⟨c, hc, rfl | hx⟩ | hx
  · split at hx
    · simp at hx; subst hx; exact gives_bang
    · simp at hx
  · exact TCmd.pieces_gives (h _ List.mem_cons_self) x hx
  · exact gives_pipe
  · exact TCmd.pieces_gives (h _ (List.mem_cons_of_mem _ hc)) x hx
  · split at hx
    · simp at hx; subst hx; exact gives_amp
    · simp at hx

theorem derives_seq (c : TCmd) (cs : List TCmd) (h : ∀ d ∈ c :: cs, d.Ok) :
    Derives .pipelineSeq (c.tokens ++ cs.flatMap (fun d => .pipe :: d.tokens))
      ((c :: cs).map fun d => .simple d.command) := by
  induction cs using snocInd with
  | nil => simpa using .psOne (TCmd.derives (h c (by simp)))
  | snoc cs d ih =>
    have := ih (fun d hd => h d (by
      rcases List.mem_cons.1 hd with rfl | hd
      · simp
      · simp [hd]))
    simpa [List.flatMap_append] using Derives.psSnoc this (TCmd.derives (h d (by simp)))

theorem TPipe.derives {p : TPipe} (h : ∀ c ∈ p.cmds, c.Ok) :
    Derives .pipeline (p.pieces.flatMap Prod.snd) p.pipeline := by
  have hs := derives_seq p.first p.rest h
  obtain ⟨bang, c, cs, bg⟩ := p
  have e : (TPipe.pieces ⟨bang, c, cs, bg⟩).flatMap Prod.snd =
      (if bang then [Token.bang] else []) ++ ((c.tokens ++ cs.flatMap (fun d => .pipe :: d.tokens)) ++
        (if bg then [.amp] else [])) := by
    simp only [TPipe.pieces, List.flatMap_append, TCmd.tokens, List.flatMap_assoc, List.flatMap_cons]
    cases bang <;> cases bg <;> simp
  rw [e]
  unfold TPipe.pipeline
  cases bang <;> cases bg
  · simpa [TPipe.cmds] using Derives.plSeq hs
  · simpa [TPipe.cmds] using Derives.plBg hs .bgOp
  · simpa [TPipe.cmds] using Derives.plBang hs
  · simpa [TPipe.cmds] using Derives.plBangBg hs .bgOp

/-! ## Chains -/

/-- The text and token of a connective. -/
def condPiece : CondExec → Str × List Token
  | .and => (cs!"&&", [.and])
  | .or => (cs!"||", [.or])

theorem condPiece_gives (o : CondExec) : Gives (condPiece o).1 (condPiece o).2 := by
  cases o
  · exact gives_and
  · exact gives_or

/-- The tokens of a chain, lexeme by lexeme. -/
def Spec.TChain.pieces (c : TChain) : List (Str × List Token) :=
  c.first.pieces ++ c.rest.flatMap fun l => condPiece l.1 :: l.2.pieces

theorem TChain.pieces_text (c : TChain) : c.pieces.map Prod.fst = c.lexemes := by
  unfold TChain.pieces TChain.lexemes
  rw [List.map_append, TPipe.pieces_text, List.map_flatMap]
  congr 2
  funext l
  rw [List.map_cons, TPipe.pieces_text]
  cases l.1 <;> rfl

theorem TChain.pieces_gives {c : TChain} (h : ∀ d ∈ c.first.cmds ++ c.rest.flatMap (fun p => p.2.cmds), d.Ok) :
    ∀ x ∈ c.pieces, Gives x.1 x.2 := by
  intro x hx
  simp only [TChain.pieces, List.mem_append, List.mem_flatMap, List.mem_cons] at hx
  rcases hx with hx | ⟨l, hl, rfl | hx⟩
  · exact TPipe.pieces_gives (fun d hd => h d (List.mem_append_left _ hd)) x hx
  · exact condPiece_gives _
  · exact TPipe.pieces_gives (fun d hd => h d (List.mem_append_right _ (List.mem_flatMap.2 ⟨l, hl, hd⟩))) x hx

theorem TChain.derives {c : TChain} (h : ∀ d ∈ c.first.cmds ++ c.rest.flatMap (fun p => p.2.cmds), d.Ok) :
    Derives .andOr (c.pieces.flatMap Prod.snd) c.tree := by
  obtain ⟨p, ls⟩ := c
  unfold TChain.pieces TChain.tree
  simp only
  induction ls using snocInd with
  | nil => simpa using .aoOne (TPipe.derives (p := p) (fun d hd => h d (List.mem_append_left _ hd)))
  | snoc ls l ih =>
    have := ih (fun d hd => h d (by
      simp only [List.flatMap_append, List.mem_append] at hd ⊢
      rcases hd with hd | hd
      · exact .inl hd
      · exact .inr (.inl hd)))
    have hl := TPipe.derives (p := l.2) (fun d hd => h d (by simp [hd]))
    obtain ⟨op, q⟩ := l
    rw [List.foldl_append]
    simp only [List.foldl_cons, List.foldl_nil]
    cases op
    · simpa [condPiece, List.flatMap_append] using Derives.aoAnd this hl
    · simpa [condPiece, List.flatMap_append] using Derives.aoOr this hl

/-! ## Lines -/

/-- The tokens of a line, lexeme by lexeme. -/
def Spec.TLine.pieces (l : TLine) : List (Str × List Token) :=
  l.first.pieces ++ l.rest.flatMap fun c => (cs!";", [.semi]) :: c.pieces

theorem TLine.pieces_text (l : TLine) : l.pieces.map Prod.fst = l.lexemes := by
  unfold TLine.pieces TLine.lexemes
  rw [List.map_append, TChain.pieces_text, List.map_flatMap]
  congr 2
  funext c
  rw [List.map_cons, TChain.pieces_text]

theorem TLine.pieces_gives {l : TLine} (h : l.Ok) : ∀ x ∈ l.pieces, Gives x.1 x.2 := by
  intro x hx
  simp only [TLine.pieces, List.mem_append, List.mem_flatMap, List.mem_cons] at hx
  rcases hx with hx | ⟨c, hc, rfl | hx⟩
  · exact TChain.pieces_gives (fun d hd => h d (List.mem_flatMap.2 ⟨_, List.mem_cons_self, hd⟩)) x hx
  · exact gives_semi
  · exact TChain.pieces_gives (fun d hd => h d (List.mem_flatMap.2 ⟨_, List.mem_cons_of_mem _ hc, hd⟩)) x hx

theorem TLine.derives {l : TLine} (h : l.Ok) : Derives .list (l.pieces.flatMap Prod.snd) l.tree := by
  obtain ⟨c, cs⟩ := l
  unfold TLine.pieces TLine.tree
  simp only
  induction cs using snocInd with
  | nil =>
    simpa using .listOne (TChain.derives (c := c) (fun d hd => h d (List.mem_flatMap.2 ⟨_, List.mem_cons_self, hd⟩)))
  | snoc cs d ih =>
    have := ih (fun x hx => h x (by
      unfold TLine.cmds at hx ⊢
      obtain ⟨y, hy, hx⟩ := List.mem_flatMap.1 hx
      refine List.mem_flatMap.2 ⟨y, ?_, hx⟩
      rcases List.mem_cons.1 hy with rfl | hy
      · simp
      · have hy : y ∈ cs := hy
        simp [hy]))
    have hl := TChain.derives (c := d) (fun x hx => h x (List.mem_flatMap.2 ⟨d, by simp, hx⟩))
    have h2 := Derives.listSnoc this .sepOpSemi hl
    simpa [List.flatMap_append] using h2

/-- Parsing a line. -/
theorem parse_tline {l : TLine} (h : l.Ok) : parse l.text = some (some l.tree) := by
  unfold parse
  have e : l.text = line (l.pieces.map fun p => ([' '], p.1)) [] := by
    unfold TLine.text
    rw [← TLine.pieces_text, List.map_map]
    rfl
  rw [e, lex_gives _ (TLine.pieces_gives h), Option.bind_some]
  exact parseTokens_complete (.ccListSep (TLine.derives h) .sepEof)

theorem TCmd.lexemes_ne {c : TCmd} (h : c.Ok) : c.lexemes ≠ [] := by
  unfold TCmd.lexemes
  intro e
  simp only [List.append_eq_nil_iff, List.map_eq_nil_iff] at e
  obtain ⟨e1, e2, -⟩ := e
  cases hn : c.name with
  | none => exact (h.some hn).1 e1
  | some t => rw [hn] at e2; simp at e2

theorem TLine.text_ne {l : TLine} (h : l.Ok) : l.text ≠ [] := by
  have hc : l.first.first.first.Ok := h _ (by simp [TLine.cmds, TPipe.cmds])
  have := TCmd.lexemes_ne hc
  have hl : l.lexemes ≠ [] := by
    unfold TLine.lexemes TChain.lexemes TPipe.lexemes
    simp [this]
  unfold TLine.text
  cases hx : l.lexemes with
  | nil => exact absurd hx hl
  | cons x xs => simp [line]

end Rsh
