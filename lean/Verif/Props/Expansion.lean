import Verif.Spec.Splitting
import Verif.Proofs.Prompt
import Verif.Proofs.Substitution
import Verif.Proofs.Lexer

/-!
# Properties C25 and C26: command names and command substitution
-/

namespace Rsh

open Spec

/-! ## Splitting a command name -/

/-- The state of the loop while `q` is open. -/
def quoteState : Option Char → QuoteType
  | .none => .none
  | some c => if c = '\'' then .single else .double

theorem openQuote_append (a b : Str) : ∀ q, openQuote q (a ++ b) = openQuote (openQuote q a) b := by
  induction a with
  | nil => intro q; rw [List.nil_append, openQuote]
  | cons c a ih => intro q; cases q <;> rw [List.cons_append, openQuote, openQuote, ih]

/-- Only the two quote characters are ever open. -/
def QuoteChar (q : Option Char) : Prop := ∀ c, q = some c → c = '\'' ∨ c = '"'

theorem openQuote_quote {q : Option Char} (h : QuoteChar q) (t : Str) : QuoteChar (openQuote q t) := by
  induction t generalizing q with
  | nil => rw [openQuote]; exact h
  | cons c t ih =>
    cases q with
    | none =>
      rw [openQuote]
      refine ih ?_
      split
      · next hc => intro d hd; cases hd; exact hc
      · intro d hd; cases hd
    | some d =>
      rw [openQuote]
      refine ih ?_
      split
      · intro d hd; cases hd
      · exact h

theorem isWs_not_quote {c : Char} (h : isWs c = true) : c ≠ '\'' ∧ c ≠ '"' := by
  constructor <;> (rintro rfl; exact absurd h (by decide))

theorem dropB_inside (a : Str) (c : Char) (b : Str) (h : 1 < c.utf8Size) :
    dropB (blen a + 1) (a ++ c :: b) = none := by
  induction a with
  | nil => rw [List.nil_append, blen, dropB, if_neg (by omega)]
  | cons d a ih =>
    have hp := utf8Size_pos d
    rw [List.cons_append, dropB, if_pos (by simp only [blen]; omega)]
    rw [show blen (d :: a) + 1 - d.utf8Size = blen a + 1 by simp only [blen]; omega]
    exact ih

theorem blen_pos {t : Str} (h : t ≠ []) : 0 < blen t := by
  cases t with
  | nil => exact absurd rfl h
  | cons c t => have := utf8Size_pos c; simp only [blen]; omega

/-- A piece that starts inside a character can never be cut out. -/
theorem splitQtsAux_bad {whole : Str} {start : Nat} (hd : dropB start whole = none) (hlt : start < blen whole) :
    ∀ (rest : Str) (i : Nat) (q : QuoteType), splitQtsAux whole rest i start q = none := by
  intro rest
  induction rest with
  | nil => intro i q; rw [splitQtsAux, if_pos hlt, sliceFromB, hd]; rfl
  | cons c rest ih =>
    intro i q
    cases q with
    | none =>
      rw [splitQtsAux, ih, ih, ih]
      simp only [sliceB, hd, Option.bind_none, ite_self]
    | single => rw [splitQtsAux, ih]
    | double => rw [splitQtsAux, ih]

/-- One step of the loop that does not end a piece. -/
theorem splitQtsAux_step (whole : Str) (c : Char) (rest : Str) (i start : Nat) {q : Option Char}
    (hq : QuoteChar q) (h : q = none → isWs c = false) :
    splitQtsAux whole (c :: rest) i start (quoteState q) =
      splitQtsAux whole rest (i + c.utf8Size) start (quoteState (openQuote q [c])) := by
  cases q with
  | none =>
    rw [openQuote, openQuote]
    by_cases h1 : c = '\''
    · simp [quoteState, splitQtsAux, h1]
    by_cases h2 : c = '"'
    · simp [quoteState, splitQtsAux, h2]
    · simp [quoteState, splitQtsAux, h1, h2, h rfl]
  | some d =>
    rw [openQuote, openQuote]
    rcases hq d rfl with rfl | rfl
    · simp only [quoteState, if_true, splitQtsAux]
      split <;> simp
    · simp only [quoteState, splitQtsAux, if_neg (show ¬ ('"' : Char) = '\'' by decide)]
      split <;> simp

/-- The step at a blank outside quotes. -/
theorem splitQtsAux_blank (done cur : Str) (c : Char) (rest : Str) (h : isWs c = true) :
    splitQtsAux (done ++ (cur ++ c :: rest)) (c :: rest) (blen done + blen cur) (blen done) .none =
      (splitQtsAux (done ++ (cur ++ c :: rest)) rest (blen done + blen cur + c.utf8Size)
        (blen done + blen cur + 1) .none).map (cur :: ·) := by
  have hq := isWs_not_quote h
  rw [splitQtsAux, if_neg hq.1, if_neg hq.2, if_pos h, sliceB_append]
  rfl

theorem noOuter_snoc {p : Str} {c : Char} (hp : ∀ d, ¬ OuterBlank p d)
    (hc : openQuote none p = none → isWs c = false) : ∀ d, ¬ OuterBlank (p ++ [c]) d := by
  rintro d ⟨a, b, e, hw, ho⟩
  rcases List.eq_nil_or_concat b with rfl | ⟨b', x, rfl⟩
  · have := List.append_inj' e rfl
    obtain ⟨rfl, h2⟩ := this
    cases h2
    rw [hc ho] at hw; exact absurd hw (by simp)
  · have e2 : p ++ [c] = (a ++ d :: b') ++ [x] := by rw [e]; simp
    obtain ⟨rfl, _⟩ := List.append_inj' e2 rfl
    exact hp d ⟨a, b', rfl, hw, ho⟩

theorem noOuter_nil : ∀ d, ¬ OuterBlank ([] : Str) d := by
  rintro d ⟨a, b, e, _⟩
  cases a <;> simp at e

/-- The loop from the middle of a piece. -/
theorem splitQtsAux_pieces : ∀ (rest done cur : Str), (∀ d, ¬ OuterBlank cur d) →
    (∀ a c b, rest = a ++ c :: b → isWs c = true → openQuote none (cur ++ a) = none → c.utf8Size = 1) →
    ∃ ps, splitQtsAux (done ++ (cur ++ rest)) rest (blen done + blen cur) (blen done)
      (quoteState (openQuote none cur)) = some ps ∧ Pieces (cur ++ rest) ps := by
  intro rest
  induction rest with
  | nil =>
    intro done cur hcur _
    rw [List.append_nil, splitQtsAux]
    rcases cur with _ | ⟨c, cur⟩
    · refine ⟨[], ?_, .nil⟩
      rw [if_neg (by rw [List.append_nil]; omega)]
    · refine ⟨[c :: cur], ?_, .last (by simp) hcur⟩
      rw [if_pos (by rw [blen_append]; have := blen_pos (t := c :: cur) (by simp); omega), sliceFromB, dropB_append]
      rfl
  | cons c rest ih =>
    intro done cur hcur hsz
    have hq : QuoteChar (openQuote none cur) := openQuote_quote (by intro d hd; cases hd) cur
    by_cases hb : openQuote none cur = none ∧ isWs c = true
    · have h1 : c.utf8Size = 1 := hsz [] c rest rfl hb.2 (by rw [List.append_nil]; exact hb.1)
      rw [hb.1]
      show ∃ ps, splitQtsAux _ _ _ _ .none = _ ∧ _
      rw [splitQtsAux_blank done cur c rest hb.2]
      obtain ⟨ps, e, hp⟩ := ih (done ++ (cur ++ [c])) [] noOuter_nil (by
        intro a d b e hw ho
        refine hsz (c :: a) d b (by rw [e]; rfl) hw ?_
        rw [openQuote_append, hb.1, openQuote, if_neg (by
          have := isWs_not_quote hb.2; simp [this.1, this.2])]
        exact ho)
      have e1 : done ++ (cur ++ [c]) ++ ([] ++ rest) = done ++ (cur ++ c :: rest) := by simp
      have e2 : blen (done ++ (cur ++ [c])) = blen done + blen cur + 1 := by
        rw [blen_append, blen_append]; simp only [blen]; omega
      rw [e1, e2] at e
      rw [h1]
      refine ⟨cur :: ps, ?_, .cons hcur hb.1 hb.2 (by simpa using hp)⟩
      have e3 : splitQtsAux (done ++ (cur ++ c :: rest)) rest (blen done + blen cur + 1) (blen done + blen cur + 1)
          .none = some ps := by simpa [blen, openQuote, quoteState] using e
      rw [e3]; rfl
    · have hc : openQuote none cur = none → isWs c = false := by
        intro h
        cases hw : isWs c with
        | false => rfl
        | true => exact absurd ⟨h, hw⟩ hb
      rw [splitQtsAux_step _ _ _ _ _ hq hc, ← openQuote_append]
      obtain ⟨ps, e, hp⟩ := ih done (cur ++ [c]) (noOuter_snoc hcur hc) (by
        intro a d b e hw ho
        refine hsz (c :: a) d b (by rw [e]; rfl) hw ?_
        simpa using ho)
      refine ⟨ps, ?_, by simpa using hp⟩
      have e2 : blen (cur ++ [c]) = blen cur + c.utf8Size := by rw [blen_append]; simp [blen]
      rw [e2] at e
      simpa [Nat.add_assoc] using e

/-- A wide blank outside quotes makes the loop panic. -/
theorem splitQtsAux_wide : ∀ (a done cur : Str) (c : Char) (b : Str), isWs c = true →
    openQuote none (cur ++ a) = none → 1 < c.utf8Size →
    splitQtsAux (done ++ (cur ++ (a ++ c :: b))) (a ++ c :: b) (blen done + blen cur) (blen done)
      (quoteState (openQuote none cur)) = none := by
  intro a
  induction a with
  | nil =>
    intro done cur c b hw ho hc
    rw [List.append_nil] at ho
    rw [ho, List.nil_append]
    show splitQtsAux _ _ _ _ .none = none
    rw [splitQtsAux_blank done cur c b hw]
    have hd : dropB (blen done + blen cur + 1) (done ++ (cur ++ c :: b)) = none := by
      rw [← List.append_assoc, ← blen_append]; exact dropB_inside _ _ _ hc
    rw [splitQtsAux_bad hd (by simp only [blen_append, blen]; omega)]
    rfl
  | cons x a ih =>
    intro done cur c b hw ho hc
    have hq : QuoteChar (openQuote none cur) := openQuote_quote (by intro d hd; cases hd) cur
    by_cases hb : openQuote none cur = none ∧ isWs x = true
    · rw [hb.1]
      show splitQtsAux _ _ _ _ .none = _
      rw [List.cons_append, splitQtsAux_blank done cur x _ hb.2]
      by_cases h1 : 1 < x.utf8Size
      · have hd : dropB (blen done + blen cur + 1) (done ++ (cur ++ x :: (a ++ c :: b))) = none := by
          rw [← List.append_assoc, ← blen_append]; exact dropB_inside _ _ _ h1
        rw [splitQtsAux_bad hd (by simp only [blen_append, blen]; omega)]
        rfl
      · have h1 : x.utf8Size = 1 := by have := utf8Size_pos x; omega
        have e := ih (done ++ (cur ++ [x])) [] c b hw (by
          rw [openQuote_append, hb.1, openQuote, if_neg (by
            have := isWs_not_quote hb.2; simp [this.1, this.2])] at ho
          exact ho) hc
        have e1 : done ++ (cur ++ [x]) ++ ([] ++ (a ++ c :: b)) = done ++ (cur ++ x :: (a ++ c :: b)) := by simp
        have e2 : blen (done ++ (cur ++ [x])) = blen done + blen cur + 1 := by
          rw [blen_append, blen_append]; simp only [blen]; omega
        rw [e1, e2] at e
        rw [h1]
        have e3 : splitQtsAux (done ++ (cur ++ x :: (a ++ c :: b))) (a ++ c :: b) (blen done + blen cur + 1)
            (blen done + blen cur + 1) .none = none := by simpa [blen, openQuote, quoteState] using e
        rw [e3]; rfl
    · have hx : openQuote none cur = none → isWs x = false := by
        intro h
        cases hw : isWs x with
        | false => rfl
        | true => exact absurd ⟨h, hw⟩ hb
      rw [List.cons_append, splitQtsAux_step _ _ _ _ _ hq hx, ← openQuote_append]
      have e := ih done (cur ++ [x]) c b hw (by simpa using ho) hc
      have e2 : blen (cur ++ [x]) = blen cur + x.utf8Size := by rw [blen_append]; simp [blen]
      rw [e2] at e
      simpa [Nat.add_assoc] using e

theorem outer_cons_split {p q : Str} {c d : Char} {t u : Str} (hp : ∀ x, ¬ OuterBlank p x)
    (hq : ∀ x, ¬ OuterBlank q x) (op : openQuote none p = none) (oq : openQuote none q = none)
    (hc : isWs c = true) (hd : isWs d = true) (e : p ++ c :: t = q ++ d :: u) : p = q ∧ c = d ∧ t = u := by
  rcases List.append_eq_append_iff.1 e with ⟨as, h1, h2⟩ | ⟨bs, h1, h2⟩
  · cases as with
    | nil => simp at h1 h2; exact ⟨h1.symm, h2.1, h2.2⟩
    | cons x as =>
      simp at h2
      obtain ⟨rfl, _⟩ := h2
      exact absurd ⟨p, as, h1, hc, op⟩ (hq c)
  · cases bs with
    | nil => simp at h1 h2; exact ⟨h1, h2.1.symm, h2.2.symm⟩
    | cons x bs =>
      simp at h2
      obtain ⟨rfl, _⟩ := h2
      exact absurd ⟨q, bs, h1, hd, oq⟩ (hp d)

/-- A text has only one list of pieces. -/
theorem Spec.Pieces.unique {t : Str} {ps : List Str} (h : Pieces t ps) : ∀ qs, Pieces t qs → ps = qs := by
  induction h with
  | nil =>
    intro qs hq
    generalize ht : ([] : Str) = t at hq
    cases hq with
    | nil => rfl
    | last h => exact absurd ht.symm h
    | cons => simp at ht
  | @last p hne hno =>
    intro qs hq
    cases hq with
    | nil => exact absurd rfl hne
    | last => rfl
    | @cons q c u us h1 h2 h3 h4 => exact absurd ⟨q, u, rfl, h3, h2⟩ (hno c)
  | @cons p c t ps hp op hc ht ih =>
    intro qs hq
    generalize he : p ++ c :: t = x at hq
    cases hq with
    | nil => simp at he
    | last h hno => exact absurd ⟨p, t, he.symm, hc, op⟩ (hno c)
    | @cons q d u us h1 h2 h3 h4 =>
      obtain ⟨rfl, rfl, rfl⟩ := outer_cons_split hp h1 op h2 hc h3 he
      rw [ih _ h4]

/-- **C26**, the part that holds: when the blanks outside quotes are of one byte, the name is split at
exactly these blanks, and splitting does not panic.  Blanks of two or three bytes are not covered. -/
theorem C26_splits_partial (name : Str) (h : ∀ c, OuterBlank name c → c.utf8Size = 1) :
    (splitQts name).isSome ∧ ∀ ps, splitQts name = some ps ↔ Pieces name ps := by
  obtain ⟨ps, e, hp⟩ := splitQtsAux_pieces name [] [] noOuter_nil (by
    intro a c b e hw ho
    exact h c ⟨a, b, e, hw, ho⟩)
  have e : splitQts name = some ps := e
  refine ⟨by rw [e]; rfl, fun qs => ⟨fun hq => ?_, fun hq => ?_⟩⟩
  · rw [e] at hq; cases hq; exact hp
  · rw [e, hp.unique qs hq]

/-- **C26**, the exception: splitting panics for every name with a blank of several bytes outside quotes,
and for no other. -/
theorem C26_panics (name : Str) : splitQts name = none ↔ ∃ c, OuterBlank name c ∧ 1 < c.utf8Size := by
  constructor
  · intro hn
    refine Classical.byContradiction fun hno => ?_
    have := (C26_splits_partial name fun c hc => by
      have := utf8Size_pos c
      have h2 : ¬ 1 < c.utf8Size := fun h2 => hno ⟨c, hc, h2⟩
      omega).1
    rw [hn] at this
    exact absurd this (by simp)
  · rintro ⟨c, ⟨a, b, rfl, hw, ho⟩, h2⟩
    exact splitQtsAux_wide a [] [] c b hw ho h2

/-- Pieces with blanks in quotes, and a blank at the end. -/
example : splitQts (cs!"a 'b c' \"d 'e\" ") = some [cs!"a", cs!"'b c'", cs!"\"d 'e\""] := by decide

/-- **C26** is false as stated: a no-break space outside quotes stops the shell, here when the name of a
command is the value of a variable. -/
theorem C26_counterexample : splitQts (cs!"a\u00a0b") = none ∧
    outcome (demoOut [cs!"X='a\u00a0b'", cs!"$X"]) = .panic .utf8 := by
  decide +kernel

/-! ## Command substitution -/

theorem evalSuffixWords_before (w : World) (rec : List AndOr → M Int) {m : CtxMgr} {ts vs : List Str}
    (h : Arrive (fun n => (m.getVar n).map Var.value) ts vs) {b : List Str} {s s' : Sh} {vb : List Str}
    (hb : evalSuffixWords w rec b s = (.ok vb, s')) :
    evalSuffixWords w rec (ts.map (expandWord m) ++ b) s = (.ok (vs ++ vb), s') := by
  induction h with
  | nil => exact hb
  | cons h _ ih =>
    rw [List.map_cons, List.cons_append]
    rw [← expandWord_eq] at h
    rw [evalSuffixWords_cons w rec h, run_bind_ok ih]
    rfl

theorem evalSuffixWords_double (w : World) (rec : List AndOr → M Int) {t : Str} {b : List Str} {s s1 s2 : Sh}
    {vt vb : List Str} (ht : evalDoubleQuotes w rec ('"' :: t) s = (.ok vt, s1))
    (hb : evalSuffixWords w rec b s1 = (.ok vb, s2)) :
    evalSuffixWords w rec (('"' :: t) :: b) s = (.ok (vt ++ vb), s2) := by
  unfold evalSuffixWords
  rw [if_pos (by rfl), run_bind_ok ht]
  exact run_bind_ok hb _

theorem evalSuffixWords_halt (w : World) (rec : List AndOr → M Int) {z : Halt} {m : CtxMgr} {ts vs : List Str}
    (h : Arrive (fun n => (m.getVar n).map Var.value) ts vs) {t : Str} {b : List Str} {s : Sh}
    (hb : (evalDoubleQuotes w rec ('"' :: t) s).1 = z.out) :
    (evalSuffixWords w rec (ts.map (expandWord m) ++ ('"' :: t) :: b) s).1 = z.out := by
  induction h with
  | nil =>
    show (evalSuffixWords w rec (('"' :: t) :: b) s).1 = z.out
    unfold evalSuffixWords
    rw [if_pos (by rfl)]
    exact halt_bind hb _
  | cons h _ ih =>
    rw [List.map_cons, List.cons_append]
    rw [← expandWord_eq] at h
    rw [evalSuffixWords_cons w rec h]
    exact halt_bind ih _

theorem evalSuffixWords_hang (w : World) (rec : List AndOr → M Int) {m : CtxMgr} {ts vs : List Str}
    (h : Arrive (fun n => (m.getVar n).map Var.value) ts vs) {t : Str} {b : List Str} {s : Sh}
    (hb : (evalDoubleQuotes w rec ('"' :: t) s).1 = .hang) :
    (evalSuffixWords w rec (ts.map (expandWord m) ++ ('"' :: t) :: b) s).1 = .hang :=
  evalSuffixWords_halt (z := .hang) w rec h hb

theorem arrive_all {get : Str → Option Str} (l : List (Typed × Str)) (h : ∀ a ∈ l, a.1.Means get a.2) :
    Arrive get (l.map fun a => a.1.text) (l.map Prod.snd) := by
  induction l with
  | nil => exact .nil
  | cons a l ih => exact .cons (h a List.mem_cons_self) (ih fun b hb => h b (List.mem_cons_of_mem _ hb))

/-- The second command as the theorems about external commands have it, when the substitution gives `vs`. -/
def Spec.SubstLine.ext (l : SubstLine) (vs : List Str) : Ext :=
  { name := l.name, args := (l.before.map Prod.snd ++ (vs ++ l.after.map Prod.snd)).map fun x => (.plain [], x) }

theorem Spec.SubstLine.ext_argv (l : SubstLine) (vs : List Str) : (l.ext vs).argv = l.argv vs := by
  unfold Ext.argv Ext.words SubstLine.ext SubstLine.argv
  simp [Function.comp_def]

theorem SubstLine.parse {l : SubstLine} {s : Sh} (h : l.Ok s) :
    parse l.text = some (some [.mk none none (.mk false [.simple ⟨none, l.name,
      some ⟨[], l.words.map Typed.text⟩⟩] false)]) := by
  have hword : l.word.Ok := by
    show '"' ∉ l.pre ++ (substitution l.tick l.cmd.text ++ l.post)
    have hq : '"' ∉ substitution l.tick l.cmd.text := by
      unfold substitution
      split
      · simpa using h.text.1
      · simpa using h.text.1
    simp only [List.mem_append, not_or]
    exact ⟨fun e => (h.around _ (List.mem_append_left _ e)).1 rfl, hq,
      fun e => (h.around _ (List.mem_append_right _ e)).1 rfl⟩
  have hws : ∀ t ∈ l.words, t.Ok := by
    intro t ht
    unfold SubstLine.words at ht
    rcases List.mem_append.1 ht with ht | ht
    · obtain ⟨a, ha, rfl⟩ := List.mem_map.1 ht
      exact (h.args a (List.mem_append_left _ ha)).1
    · rcases List.mem_cons.1 ht with rfl | ht
      · exact hword
      · obtain ⟨a, ha, rfl⟩ := List.mem_map.1 ht
        exact (h.args a (List.mem_append_right _ ha)).1
  have := parse_line [] (.plain l.name) (l.words.map fun t => ([' '], t)) [] h.name.1
    (fun p hp => by
      obtain ⟨t, ht, rfl⟩ := List.mem_map.1 hp
      exact hws t ht)
    ⟨fun p hp => by
      simp only [List.map_map, List.mem_cons, List.mem_map] at hp
      rcases hp with rfl | ⟨a, ha, rfl⟩
      · simp
      · intro b hb
        rw [List.mem_singleton.1 hb]
        exact (by decide : Blank ' '),
     fun p hp => by
      simp only [List.map_map, List.tail_cons, List.mem_map] at hp
      obtain ⟨a, ha, rfl⟩ := hp
      simp, by simp⟩
  unfold SubstLine.text
  rw [show (l.words.map fun t => (([' '] : Str), t.text)) =
    (l.words.map fun t => (([' '] : Str), t)).map fun p => (p.1, p.2.text) by simp [Function.comp_def]]
  refine this.trans ?_
  unfold wordsCommand sufOf
  have hne : l.words ≠ [] := by unfold SubstLine.words; simp
  rcases hws : l.words with _ | ⟨x, xs⟩
  · exact absurd hws hne
  · simp [Typed.text, Function.comp_def]

/-- **C25**, the part that holds: the program of a command substitution in double quotes (written with `$(…)` or
with backticks) runs with its
standard output connected to a pipe; if what it writes there fits into the pipe, it takes the place of the
substitution, without the blanks around it.  If there is then a space in the text, it is cut into words; else it
is one argument, as it should be.  The other words of the line are not affected.
(What is missing: output that does not fit, output that looks like a command
substitution, and commands other than one external program that exits, while there is no other job.) -/
theorem C25_substitution_partial (w : World) (hw : Resources w) (n : Nat) (s : Sh) (hp : AtPrompt w s)
    (ht : s.jc.table = []) (l : SubstLine) (hok : l.Ok s) (file file' : Str)
    (hrun : ∀ tr, Runnable w s (tr ++ s.trace) l.cmd.name file)
    (hrun' : ∀ tr, Runnable w s (tr ++ s.trace) l.name file')
    (hsig : Uninterrupted w) (pid : Nat) (hpid : w.fork (.born :: s.trace) = some pid) (k : Nat) (code : Int) (rest : List WRes)
    (hwaits : w.childWaits (.born :: s.trace) = List.replicate k .eintr ++ .st (.exited pid code) :: rest)
    (he : .eintr ∉ rest) :
    ∃ img : ExecImage, img.path = file ∧ img.argv = l.cmd.argv ∧ img.env = s.env ∧
      chanOf img 0 = some (.orig 0) ∧ chanOf img 1 = some (.pipeW s.nextPipe) ∧
      ∀ out v vs, Trimmed (w.progOut img (.pipeW s.nextPipe)) out → v = l.pre ++ (out ++ l.post) →
        blen (w.progOut img (.pipeW s.nextPipe)) ≤ w.pipeCap → Becomes v vs → (∀ x ∈ vs, '\x00' ∉ x) →
        v.head? ≠ some '`' → (∀ t, v ≠ '$' :: '(' :: t) →
        ∃ evs pid' img', Happened s (interactiveLine w (n + 2) l.text s).2
            [.subst (.exit 0) (.spawn pid (.exec img) [] :: evs), .spawn pid' (.exec img') []] ∧
          (∀ e ∈ evs, Quiet e) ∧ img'.path = file' ∧ img'.argv = l.argv vs ∧ img'.env = s.env ∧
          ∀ fd, img'.fds.get fd = stdTable.get fd := by
  have hfds := AtPrompt_resources_fds hw hp
  obtain ⟨img, ws, h1, h2, h3, -, -, h6, h7, -⟩ := evalSubshell_ext hw l.tick n (s := { s with masked := true })
    (e := l.cmd.ext) ⟨hok.cmd.ext.plain, hok.cmd.ext.external, hok.cmd.ext.alias, hok.cmd.ext.function,
      hok.cmd.ext.args, hok.cmd.ext.nul, hok.cmd.ext.assign⟩ rfl rfl (parse_cmdLine hok.cmd).1 hfds ht
    (AtPrompt_own hp).2.1 (fun tr => ⟨(hrun tr).path, (hrun tr).exec, (hrun tr).nul⟩) hpid hsig rfl hwaits he
  refine ⟨img, h1, by rw [h2, CmdLine.ext_argv], h3, ?_, ?_, ?_⟩
  · unfold chanOf; rw [h6]; rfl
  · unfold chanOf; rw [h6]; rfl
  · intro out v vs htr hv hfit hbec hnul hbt hds
    subst hv
    rw [← trimWs_iff] at htr
    subst htr
    have hpl : ∀ c ∈ l.pre ++ l.post, c ≠ '$' ∧ c ≠ '`' := fun c hc => (hok.around c hc).2
    have hno : substText (l.pre ++ (trimWs (w.progOut img (.pipeW s.nextPipe)) ++ l.post)) = none := by
      generalize l.pre ++ (trimWs (w.progOut img (.pipeW s.nextPipe)) ++ l.post) = v at hbt hds
      unfold substText
      rw [if_neg, if_neg]
      · rw [startsWith_single]; exact hbt
      · intro e
        obtain ⟨t, ht⟩ := List.isPrefixOf_iff_prefix.1 e
        exact hds t ht.symm
    have hdq := evalDoubleQuotes_subst w (evalFuel w (n + 1)) (fun c hc => hpl c (List.mem_append_left _ hc))
      (fun c hc => hpl c (List.mem_append_right _ hc)) hok.text.2 (h7 hfit) hno
    have hvs : (if hasSub [' '] (l.pre ++ (trimWs (w.progOut img (.pipeW s.nextPipe)) ++ l.post)) then
        splitWs (l.pre ++ (trimWs (w.progOut img (.pipeW s.nextPipe)) ++ l.post)) else
        [l.pre ++ (trimWs (w.progOut img (.pipeW s.nextPipe)) ++ l.post)]) = vs := by
      unfold Becomes at hbec
      by_cases hsp : ' ' ∈ l.pre ++ (trimWs (w.progOut img (.pipeW s.nextPipe)) ++ l.post)
      · rw [if_pos hsp] at hbec
        rw [if_pos ((hasSub_single _ _).2 hsp), splitWs_iff.2 hbec]
      · rw [if_neg hsp] at hbec
        rw [if_neg (fun e => hsp ((hasSub_single _ _).1 e)), hbec]
    rw [hvs] at hdq
    generalize hs1 : ({ s with
      masked := true
      nextPipe := s.nextPipe + 1
      trace := .subst (.exit 0) (.spawn pid (.exec img) [] :: ws.map .waited) :: s.trace } : Sh) = s1
    have hdq : evalDoubleQuotes w (evalFuel w (n + 1)) l.word.text { s with masked := true } = (.ok vs, s1) := by
      rw [← hs1]; exact hdq
    have hsuf : evalSuffixWords w (evalFuel w (n + 1)) ((l.words.map Typed.text).map (expandWord s.ctx))
        { s with masked := true } = (.ok (l.before.map Prod.snd ++ (vs ++ l.after.map Prod.snd)), s1) := by
      unfold SubstLine.words
      rw [List.map_append, List.map_append, List.map_cons, List.map_cons, List.map_map (l := l.before), List.map_map (l := l.after)]
      refine evalSuffixWords_before w _ (m := s.ctx) (arrive_all l.before fun a ha => (hok.args a (List.mem_append_left _ ha)).2.1) ?_
      have e1 : expandWord s.ctx l.word.text = l.word.text := expandWord_of_head (by simp [SubstLine.word, Typed.text])
      rw [e1]
      refine evalSuffixWords_double w _ (vt := vs) hdq ?_
      exact evalSuffixWords_all w _ (m := s.ctx) (arrive_all l.after fun a ha => (hok.args a (List.mem_append_right _ ha)).2.1) s1
    have hne : l.words.map Typed.text ≠ [] := by unfold SubstLine.words; simp
    have hex : expandCommand w (evalFuel w (n + 1)) ⟨none, l.name, some ⟨[], l.words.map Typed.text⟩⟩
        { s with masked := true } = (.ok (l.ext vs).proc.2, s1) := by
      unfold expandCommand
      rw [run_bind_ok (aliasLookup_none hok.alias),
        run_bind_ok (expandVars_run (by simp) (plainWord_head hok.name.1 (by decide)) _)]
      unfold evalWords
      rw [if_neg hok.name.1.1]
      have e1 : ¬ startsWith ['\''] l.name = true := fun e =>
        plainWord_head hok.name.1 (c := '\'') (by decide) ((startsWith_single _ _).1 e)
      simp only [e1, Bool.false_eq_true, if_false]
      rw [run_pure_bind, splitQts_plain hok.name.1, unwrapM_some, run_pure_bind,
        run_bind_ok (evalNameWords_one w _ (plainWord_head hok.name.1 (by decide)) _)]
      simp only [Option.map_some]
      rw [if_neg (by simpa using hne), run_bind_ok hsuf]
      unfold Ext.proc SubstLine.ext Ext.words
      simp [Function.comp_def]
    have harg : argvOf (l.ext vs).proc.2 = some (l.ext vs).argv := by
      unfold argvOf
      show (if (l.ext vs).argv.any (hasChar '\x00') then none else some (l.ext vs).argv) = _
      rw [if_neg]
      rw [List.any_eq_true, SubstLine.ext_argv]
      rintro ⟨x, hx, hn⟩
      have hn := hasChar_iff.1 hn
      unfold SubstLine.argv at hx
      rcases List.mem_cons.1 hx with rfl | hx
      · exact hok.name.2 hn
      · rcases List.mem_append.1 hx with hx | hx
        · obtain ⟨a, ha, rfl⟩ := List.mem_map.1 hx
          exact (hok.args a (List.mem_append_left _ ha)).2.2 hn
        · rcases List.mem_append.1 hx with hx | hx
          · exact hnul x hx hn
          · obtain ⟨a, ha, rfl⟩ := List.mem_map.1 hx
            exact (hok.args a (List.mem_append_right _ ha)).2.2 hn
    have hcmds : evalCommands w (evalFuel w (n + 1)) [.simple ⟨none, l.name, some ⟨[], l.words.map Typed.text⟩⟩]
        { s with masked := true } = (.ok [(l.ext vs).proc], s1) := by
      unfold evalCommands evalCommand evalSimple
      simp only
      rw [if_neg (by rw [isBuiltin_iff]; exact hok.external), run_bind, run_bind_ok hex, harg]
      rfl
    have hfun : s1.ctx.isFunction l.name = false := by rw [← hs1]; exact hok.function
    obtain ⟨kids, hk, hl⟩ := pipeline_launch hw (evalFuel w (n + 1)) (.mk false [.simple ⟨none, l.name,
      some ⟨[], l.words.map Typed.text⟩⟩] false) hcmds (by simp)
      (fun q hq => by rw [List.mem_singleton.1 hq]; exact hfun)
      (by rw [← hs1]; show StdFds s.fds; rw [hfds]; exact stdTable_std)
    have hsil : Silent (launched s1 false [(l.ext vs).proc] kids) (evalPipeline w (evalFuel w (n + 1)) (.mk false
        [.simple ⟨none, l.name, some ⟨[], l.words.map Typed.text⟩⟩] false) s).2 := by
      rw [hl]
      have S := Silent.seq
      apply silent_post
      refine Keeps.bind S (silent_afterFork w false _ _) (fun _ => ?_) _
      refine .bind (m := interruptsOn) S (silent_modS fun _ => rfl) fun _ => ?_
      exact .bind S (.getS S) fun _ => .pure S _
    have hin : l.text ≠ [] := by
      have := hok.name.1.1
      simp [SubstLine.text, line, this]
    obtain ⟨q, hq, hquiet⟩ := interactiveLine_silent (SubstLine.parse hok) hin hsil
    have hlen := hk.length
    rcases kids with _ | ⟨kid, _ | ⟨kid', kids⟩⟩
    · simp at hlen
    · obtain ⟨img', hi, g1, g2, g3, -, -, g6⟩ := KidOk.image (hk.kid 0 _ kid rfl rfl) hfun rfl rfl
        (by rw [← hs1]; show Uniq s.fds; rw [hfds]; exact uniq_stdTable) (fun tr => by
          rw [← hs1]
          have := hrun' (tr ++ [.subst (.exit 0) (.spawn pid (.exec img) [] :: ws.map .waited)])
          rw [List.append_assoc] at this
          exact ⟨this.path, this.exec, this.nul⟩)
      refine ⟨ws.map .waited, kid.1, img', ⟨q, hquiet, ?_⟩, ?_, g1, ?_, ?_, ?_⟩
      · rw [hq]
        have : kid.event = .spawn kid.1 (.exec img') [] := by unfold Kid.event; rw [hi]
        unfold launched
        simp only [List.map_cons, List.map_nil, this]
        rw [← hs1]
        simp
      · intro e he
        obtain ⟨r, -, rfl⟩ := List.mem_map.1 he
        trivial
      · rw [g2, SubstLine.ext_argv]
      · rw [g3, ← hs1]
      · intro fd
        rw [g6, ← hs1]
        show (stageFd s.fds none none fd).filter _ = _
        rw [hfds]
        exact stdTable_filter none none fd
    · simp at hlen

/-- `a f "x$(b c)y" 'g h'`. -/
def demoSubst : SubstLine :=
  { name := cs!"a", before := [(.plain (cs!"f"), cs!"f")], pre := cs!"x", post := cs!"y"
    cmd := { word := cs!"b", args := [([' '], .plain (cs!"c"), cs!"c")] }
    after := [(.single (cs!"g h"), cs!"g h")] }

theorem demoSubst_ok : demoSubst.Ok (atPrompt []) :=
  ⟨by decide, by decide, by decide +kernel, by decide +kernel, by decide +kernel, by decide,
   ⟨by decide, by decide, by decide, by decide, by decide,
    ⟨by decide, by decide, .inl (by decide +kernel), by decide +kernel, by decide +kernel, by decide,
     by simp [demoSubst, CmdLine.ext]⟩⟩, by decide⟩

example : demoSubst.text = cs!"a f \"x$(b c)y\" 'g h'" ∧ demoSubst.argv [cs!"xcy"] = [cs!"a", cs!"f", cs!"xcy", cs!"g h"] ∧
    started (demo [demoSubst.text]).trace = [demoSubst.argv [cs!"xcy"]] := by
  decide +kernel

/-- The hypotheses of `C25_substitution_partial` are met. -/
example : ∃ img : ExecImage, img.path = cs!"/bin/" ++ cs!"b" ∧ img.argv = [cs!"b", cs!"c"] ∧
    chanOf img 1 = some (.pipeW (atPrompt []).nextPipe) := by
  obtain ⟨img, h1, h2, -, -, h3, -⟩ := C25_substitution_partial (demoWorld []) (demo_resources []) 18 (atPrompt [])
    (atPrompt_ok (by decide +kernel)) (by decide +kernel) demoSubst demoSubst_ok (cs!"/bin/" ++ cs!"b")
    (cs!"/bin/" ++ cs!"a") (fun tr => demo_runnable (by decide +kernel) (by decide) (by decide) _)
    (fun tr => demo_runnable (by decide +kernel) (by decide) (by decide) _) (fun _ _ => nofun) 101 (by decide +kernel) 0 0 []
    (by decide +kernel) (by simp)
  exact ⟨img, h1, h2, h3⟩

/-- **C25** fails for output that does not fit into a pipe: the shell never comes back. -/
theorem C25_large (w : World) (hw : Resources w) (n : Nat) (s : Sh) (hp : AtPrompt w s)
    (ht : s.jc.table = []) (l : SubstLine) (hok : l.Ok s) (file : Str)
    (hrun : ∀ tr, Runnable w s (tr ++ s.trace) l.cmd.name file)
    (hsig : Uninterrupted w) (pid : Nat) (hpid : w.fork (.born :: s.trace) = some pid) (k : Nat) (code : Int) (rest : List WRes)
    (hwaits : w.childWaits (.born :: s.trace) = List.replicate k .eintr ++ .st (.exited pid code) :: rest)
    (he : .eintr ∉ rest) :
    ∃ img : ExecImage, img.path = file ∧ img.argv = l.cmd.argv ∧ chanOf img 1 = some (.pipeW s.nextPipe) ∧
      (w.pipeCap < blen (w.progOut img (.pipeW s.nextPipe)) → (interactiveLine w (n + 2) l.text s).1 = .hang) := by
  have hfds := AtPrompt_resources_fds hw hp
  obtain ⟨img, ws, h1, h2, -, -, -, h6, -, h8⟩ := evalSubshell_ext hw l.tick n (s := { s with masked := true })
    (e := l.cmd.ext) ⟨hok.cmd.ext.plain, hok.cmd.ext.external, hok.cmd.ext.alias, hok.cmd.ext.function,
      hok.cmd.ext.args, hok.cmd.ext.nul, hok.cmd.ext.assign⟩ rfl rfl (parse_cmdLine hok.cmd).1 hfds ht
    (AtPrompt_own hp).2.1 (fun tr => ⟨(hrun tr).path, (hrun tr).exec, (hrun tr).nul⟩) hpid hsig rfl hwaits he
  refine ⟨img, h1, by rw [h2, CmdLine.ext_argv], ?_, fun hbig => ?_⟩
  · unfold chanOf; rw [h6]; rfl
  have hdq := evalDoubleQuotes_hang w (evalFuel w (n + 1)) (post := l.post)
    (fun c hc => (hok.around c (List.mem_append_left _ hc)).2) hok.text.2 (h8 hbig)
  have hsuf : (evalSuffixWords w (evalFuel w (n + 1)) ((l.words.map Typed.text).map (expandWord s.ctx))
      { s with masked := true }).1 = .hang := by
    unfold SubstLine.words
    rw [List.map_append, List.map_append, List.map_cons, List.map_cons, List.map_map (l := l.before)]
    have e1 : expandWord s.ctx l.word.text = l.word.text := expandWord_of_head (by simp [SubstLine.word, Typed.text])
    rw [e1]
    exact evalSuffixWords_hang w _ (m := s.ctx)
      (arrive_all l.before fun a ha => (hok.args a (List.mem_append_left _ ha)).2.1) hdq
  have hne : l.words.map Typed.text ≠ [] := by unfold SubstLine.words; simp
  have hex : (expandCommand w (evalFuel w (n + 1)) ⟨none, l.name, some ⟨[], l.words.map Typed.text⟩⟩
      { s with masked := true }).1 = .hang := by
    unfold expandCommand
    rw [run_bind_ok (aliasLookup_none hok.alias),
      run_bind_ok (expandVars_run (by simp) (plainWord_head hok.name.1 (by decide)) _)]
    unfold evalWords
    rw [if_neg hok.name.1.1]
    have e1 : ¬ startsWith ['\''] l.name = true := fun e =>
      plainWord_head hok.name.1 (c := '\'') (by decide) ((startsWith_single _ _).1 e)
    simp only [e1, Bool.false_eq_true, if_false]
    rw [run_pure_bind, splitQts_plain hok.name.1, unwrapM_some, run_pure_bind,
      run_bind_ok (evalNameWords_one w _ (plainWord_head hok.name.1 (by decide)) _)]
    simp only [Option.map_some]
    rw [if_neg (by simpa using hne)]
    exact hang_bind hsuf _
  have hpl : (evalPipeline w (evalFuel w (n + 1)) (.mk false [.simple ⟨none, l.name,
      some ⟨[], l.words.map Typed.text⟩⟩] false) s).1 = .hang := by
    unfold evalPipeline
    rw [run_bind_ok (show interruptsOff s = (.ok (), { s with masked := true }) from rfl)]
    refine hang_bind ?_ _
    unfold Pipeline.seq evalCommands evalCommand evalSimple
    simp only
    rw [if_neg (by rw [isBuiltin_iff]; exact hok.external)]
    exact hang_bind (hang_bind hex _) _
  have htop : (evalTop w (n + 2) (some [.mk none none (.mk false [.simple ⟨none, l.name,
      some ⟨[], l.words.map Typed.text⟩⟩] false)]) s).1 = .hang := by
    show (evalListFrom w (evalFuel w (n + 1)) (-1) [.mk none none _] s).1 = _
    unfold evalListFrom evalAndOr
    exact hang_bind hpl _
  have hin : l.text ≠ [] := by
    have := hok.name.1.1
    simp [SubstLine.text, line, this]
  unfold interactiveLine
  rw [if_neg hin, SubstLine.parse hok]
  simp only
  rw [run_bind, run_tryE]
  rcases hr : evalTop w (n + 2) (some [.mk none none (.mk false [.simple ⟨none, l.name,
      some ⟨[], l.words.map Typed.text⟩⟩] false)]) s with ⟨o, s'⟩
  rw [hr] at htop
  obtain rfl : o = .hang := htop
  rfl

/-- **C25** is false as stated: output with a blank inside becomes several arguments, output that is a
command substitution is run again, and a command that writes more than fits into a pipe stops the shell. -/
theorem C25_counterexample :
    started (demo [cs!"a \"$(b c d)\""]).trace = [[cs!"a", cs!"c", cs!"d"]] ∧
    started (demo [cs!"a \"$(b '`c d`')\""]).trace = [[cs!"a", cs!"d"]] ∧
    outcome (typeLines { demoWorld [] with pipeCap := 3 } [cs!"a \"$(b cdef)\""] (demoShell [])).1 = .hang := by
  decide +kernel

end Rsh
