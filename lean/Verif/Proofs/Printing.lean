import Verif.Proofs.Layout
import Verif.Proofs.Call
import Verif.Spec.Printing

/-!
# Printing programs and reading them again
-/

namespace Rsh

open Spec

/-! ## Reading words -/

theorem Spec.WordChar.cont {c : Char} (h : WordChar c) : isWordContinue c = true := by
  obtain ⟨h1, h2⟩ := h
  simp only [List.mem_cons, List.not_mem_nil, or_false, not_or] at h2
  unfold isWordContinue
  simp [h1, h2]

theorem Spec.WordChar.iff {c : Char} : WordChar c ↔ isWordContinue c = true := by
  refine ⟨WordChar.cont, fun h => ?_⟩
  unfold isWordContinue at h
  split at h
  · cases h
  · next hc => exact ⟨by simpa using h, by simpa using hc⟩

/-- The text goes on with a blank or `=`, if at all. -/
def Next (rest : Str) : Prop := ∀ c, rest.head? = some c → c = ' ' ∨ c = '='

theorem Next.cont {rest : Str} (h : Next rest) : rest.head?.all (fun c => !isWordContinue c) = true := by
  cases hh : rest.head? with
  | none => rfl
  | some c => rcases h c hh with rfl | rfl <;> rfl

theorem Next.free {rest : Str} (h : Next rest) {w : Str} :
    ∀ c, rest.head? = some c → (c = '<' ∨ c = '>') → ¬ Numeral w := by
  intro c hc hl
  rcases h c hc with rfl | rfl <;> simp at hl

theorem toks_oneWord {s : Str} (h : OneWord s) {rest : Str} (hr : Next rest) :
    toks (s ++ rest) = (toks rest).map (.word s :: ·) := by
  cases h with
  | @plain c w h1 h2 h3 =>
    have hc := WordChar.cont (h1 c List.mem_cons_self)
    rw [toks_word (c :: w) rest (by simp) ?_ ?_ hr.cont, wordToken_free h3 hr.free]
    · simp only [List.mem_cons, List.not_mem_nil, or_false, not_or] at h2
      simp [wordHead, hc, h2]
    · rw [List.all_eq_true]
      exact fun d hd => WordChar.cont (h1 d hd)
  | @dollar w h1 =>
    cases w with
    | nil =>
      have hs : scanT ('$' :: rest) = scanWord '$' rest := by
        cases rest with
        | nil => rfl
        | cons c cs =>
          refine scanT_dollarWord c cs ?_
          rcases hr c rfl with rfl | rfl <;> exact ⟨by decide, by decide⟩
      obtain ⟨e1, e2⟩ := takeWhile_append_of_all (p := isWordContinue) (a := []) (by rfl) hr.cont
      rw [scanWord] at hs
      rw [List.nil_append] at e1 e2
      rw [e1, e2] at hs
      have := toks_of_tok hs
      rw [wordToken_free (w := ['$']) (by simp [reserved]) hr.free] at this
      exact this
    | cons c cs =>
      have hall : (c :: cs).all isWordContinue = true := by
        rw [List.all_eq_true]; exact fun d hd => WordChar.cont (h1 d hd)
      obtain ⟨e1, e2⟩ := takeWhile_append_of_all hall hr.cont
      have hc := (h1 c List.mem_cons_self).2
      have hs := scanT_dollarWord c (cs ++ rest)
        ⟨by rintro rfl; exact hc (by decide), by rintro rfl; exact hc (by decide)⟩
      rw [← List.cons_append, scanWord, e1, e2] at hs
      have := toks_of_tok hs
      rw [wordToken_free (w := '$' :: c :: cs) (by simp [reserved]) hr.free] at this
      exact this
  | @quoted q t hq ht =>
    simp only [List.mem_cons, List.not_mem_nil, or_false] at hq
    rcases hq with rfl | rfl | rfl
    · simpa using toks_delim t rest scanT_dquote ht
    · simpa using toks_delim t rest scanT_squote ht
    · simpa using toks_delim t rest scanT_backtick ht
  | @subst t ht =>
    have := C07_substitution t rest ht
    rw [lex_toks, lex_toks] at this
    simpa using this

/-! ## Reading lexemes -/

/-- The lexemes, each after a blank, are read as these tokens. -/
def Lexed (ls : List Str) (ts : List Token) : Prop :=
  ∀ rest : Str, (∀ c, rest.head? = some c → c = ' ') →
    toks (ls.flatMap (fun x => ' ' :: x) ++ rest) = (toks rest).map (ts ++ ·)

theorem Lexed.nil : Lexed [] [] := by
  intro rest _
  show toks rest = _
  cases toks rest <;> rfl

theorem Lexed.append {l l' : List Str} {t t' : List Token} (h : Lexed l t) (h' : Lexed l' t') :
    Lexed (l ++ l') (t ++ t') := by
  intro rest hr
  rw [List.flatMap_append, List.append_assoc, h _ ?_, h' rest hr]
  · cases toks rest <;> simp
  · cases l' with
    | nil => simpa using hr
    | cons x xs => simp

theorem Lexed.one {x : Str} {t : List Token}
    (h : ∀ rest : Str, (∀ c, rest.head? = some c → c = ' ') → toks (x ++ rest) = (toks rest).map (t ++ ·)) :
    Lexed [x] t := by
  intro rest hr
  rw [List.flatMap_cons, List.flatMap_nil, List.append_nil, List.cons_append, toks_blank _ _ (by decide) (by decide)]
  exact h rest hr

theorem Lexed.cons {x : Str} {l : List Str} {t t' : List Token} (h : Lexed [x] t) (h' : Lexed l t') :
    Lexed (x :: l) (t ++ t') := h.append h'

theorem Next.blank {rest : Str} (hr : ∀ c, rest.head? = some c → c = ' ') : Next rest := fun c hc => .inl (hr c hc)

theorem Lexed.word {s : Str} (h : OneWord s) : Lexed [s] [.word s] :=
  .one fun _ hr => toks_oneWord h (.blank hr)

theorem Lexed.assign {x v : Str} (hx : OneWord x) (hv : OneWord v) :
    Lexed [x ++ '=' :: v] [.word x, .eq, .word v] := .one fun rest hr => by
  rw [List.append_assoc, List.cons_append, toks_oneWord hx (by intro c hc; simp at hc; exact .inr hc.symm), scanT_eq,
    toks_oneWord hv (.blank hr)]
  cases toks rest <;> rfl

/-- Operators of one or two characters. -/
theorem Lexed.op {x : Str} {t : Token} (o : Op) (hx : o.text = x) (ht : o.token = t) : Lexed [x] [t] := .one fun rest hr => by
  subst hx; subst ht
  exact toks_sym (x := .op o) trivial fun c hc => by
    rw [hr c hc]
    exact opFollow_blank o (by decide)

theorem Lexed.lbrace : Lexed [cs!"{"] [.lbrace] :=
  .one fun rest _ => toks_of_tok (s := '{' :: rest) (k := []) (raw := ['{']) (n := 1) rfl
theorem Lexed.rbrace : Lexed [cs!"}"] [.rbrace] :=
  .one fun rest _ => toks_of_tok (s := '}' :: rest) (k := []) (raw := ['}']) (n := 1) rfl
theorem Lexed.lparen : Lexed [cs!"("] [.lparen] :=
  .one fun rest _ => toks_of_tok (s := '(' :: rest) (k := []) (raw := ['(']) (n := 1) rfl
theorem Lexed.rparen : Lexed [cs!")"] [.rparen] :=
  .one fun rest _ => toks_of_tok (s := ')' :: rest) (k := []) (raw := [')']) (n := 1) rfl

/-- The token of the operator of a redirection. -/
def redirToken : RedirectType → Token
  | .input => .less
  | .output => .great
  | .append => .dgreat
  | .clobber => .great

theorem Spec.Redirects.read {r : IoRedirect} (h : Redirects r) :
    ∃ ts, Lexed (redirLexemes r) ts ∧ Derives .ioRedirect ts r := by
  obtain ⟨hn, hty, hf⟩ := h
  rename_i n ty f
  have hop : ∀ rest : Str, (∀ c, rest.head? = some c → c = ' ') →
      toks (redirText ty ++ rest) = (toks rest).map (redirToken ty :: ·) := by
    intro rest hr
    have key := fun o => toks_sym (x := .op o) trivial (rest := rest) (fun c hc => by
      rw [hr c hc]
      exact opFollow_blank o (by decide))
    cases ty with
    | input => exact key .less
    | output => exact key .great
    | append => exact key .dgreat
    | clobber => exact absurd rfl hty
  have hfile : Derives .ioFile [redirToken ty, .word f] ⟨ty, f⟩ := by
    cases ty with
    | input => exact .fileIn .wordWord
    | output => exact .fileOut .wordWord
    | append => exact .fileApp .wordWord
    | clobber => exact absurd rfl hty
  cases n with
  | none => exact ⟨[redirToken ty, .word f], (Lexed.one hop : Lexed [_] [_]).append (.word hf), .redir hfile⟩
  | some n =>
    refine ⟨[.number n, redirToken ty, .word f], ?_, .redirNum hfile⟩
    have : Lexed [intStr n ++ redirText ty] [.number n, redirToken ty] := .one fun rest hr => by
      obtain ⟨c, t, e, hc⟩ : ∃ c t, redirText ty = c :: t ∧ (c = '<' ∨ c = '>') := by cases ty <;> exact ⟨_, _, rfl, by decide⟩
      have h1 := toks_number (hn n rfl) hc (t ++ rest)
      rw [← List.cons_append, ← e, ← List.append_assoc, hop rest hr] at h1
      rw [h1]
      cases toks rest <;> rfl
    exact this.append (.word hf)

theorem Spec.Redirects.readMore {rs : List IoRedirect} (h : ∀ r ∈ rs, Redirects r) :
    ∃ tss : List (List Token × IoRedirect), tss.map Prod.snd = rs ∧ (∀ p ∈ tss, Derives .ioRedirect p.1 p.2) ∧
      Lexed (rs.flatMap redirLexemes) (tss.flatMap Prod.fst) := by
  induction rs with
  | nil => exact ⟨[], rfl, by simp, .nil⟩
  | cons r rs ih =>
    obtain ⟨tss, h1, h2, h3⟩ := ih fun x hx => h x (List.mem_cons_of_mem _ hx)
    obtain ⟨ts, h4, h5⟩ := (h r List.mem_cons_self).read
    refine ⟨(ts, r) :: tss, by simp [h1], ?_, ?_⟩
    · intro p hp
      rcases List.mem_cons.1 hp with rfl | hp
      · exact h5
      · exact h2 p hp
    · rw [List.flatMap_cons, List.flatMap_cons]
      exact h4.append h3

theorem Spec.Assigns.readMore {as : List Str} (h : ∀ a ∈ as, Assigns a) :
    ∃ tss : List (List Token × Str), tss.map Prod.snd = as ∧ (∀ p ∈ tss, Derives .assignment p.1 p.2) ∧
      Lexed as (tss.flatMap Prod.fst) := by
  induction as with
  | nil => exact ⟨[], rfl, by simp, .nil⟩
  | cons a as ih =>
    obtain ⟨tss, h1, h2, h3⟩ := ih fun x hx => h x (List.mem_cons_of_mem _ hx)
    obtain ⟨x, v, hx, hv, rfl⟩ := h a List.mem_cons_self
    refine ⟨([.word x, .eq, .word v], x ++ '=' :: v) :: tss, by simp [h1], ?_, ?_⟩
    · intro p hp
      rcases List.mem_cons.1 hp with rfl | hp
      · exact .assign .wordWord
      · exact h2 p hp
    · rw [List.flatMap_cons]
      exact (Lexed.assign hx hv).cons h3

theorem Spec.Suffixes.readWords {as : List Str} (h : ∀ a ∈ as, OneWord a ∨ Assigns a) :
    ∃ tss : List (List Token × Str), tss.map Prod.snd = as ∧
      (∀ p ∈ tss, Derives .assignment p.1 p.2 ∨ p.1 = [.word p.2]) ∧ Lexed as (tss.flatMap Prod.fst) := by
  induction as with
  | nil => exact ⟨[], rfl, by simp, .nil⟩
  | cons a as ih =>
    obtain ⟨tss, h1, h2, h3⟩ := ih fun x hx => h x (List.mem_cons_of_mem _ hx)
    rcases h a List.mem_cons_self with ha | ⟨x, v, hx, hv, rfl⟩
    · refine ⟨([.word a], a) :: tss, by simp [h1], ?_, ?_⟩
      · intro p hp
        rcases List.mem_cons.1 hp with rfl | hp
        · exact .inr rfl
        · exact h2 p hp
      · rw [List.flatMap_cons]
        exact (Lexed.word ha).cons h3
    · refine ⟨([.word x, .eq, .word v], x ++ '=' :: v) :: tss, by simp [h1], ?_, ?_⟩
      · intro p hp
        rcases List.mem_cons.1 hp with rfl | hp
        · exact .inl (.assign .wordWord)
        · exact h2 p hp
      · rw [List.flatMap_cons]
        exact (Lexed.assign hx hv).cons h3

/-! ## Building derivations from the left -/

theorem pre_redirs (tss : List (List Token × IoRedirect)) (h : ∀ p ∈ tss, Derives .ioRedirect p.1 p.2)
    {a : List Token} {q : Prefix} (hq : Derives .pre a q) :
    Derives .pre (a ++ tss.flatMap Prod.fst) ⟨q.ioRedirect ++ tss.map Prod.snd, q.assignment⟩ := by
  induction tss generalizing a q with
  | nil => simpa using hq
  | cons p tss ih =>
    have := ih (fun x hx => h x (List.mem_cons_of_mem _ hx)) (.preSnocRedir hq (h p List.mem_cons_self))
    simpa using this

theorem pre_assigns (tss : List (List Token × Str)) (h : ∀ p ∈ tss, Derives .assignment p.1 p.2)
    {a : List Token} {q : Prefix} (hq : Derives .pre a q) :
    Derives .pre (a ++ tss.flatMap Prod.fst) ⟨q.ioRedirect, q.assignment ++ tss.map Prod.snd⟩ := by
  induction tss generalizing a q with
  | nil => simpa using hq
  | cons p tss ih =>
    have := ih (fun x hx => h x (List.mem_cons_of_mem _ hx)) (.preSnocAssign hq (h p List.mem_cons_self))
    simpa using this

theorem suf_redirs (tss : List (List Token × IoRedirect)) (h : ∀ p ∈ tss, Derives .ioRedirect p.1 p.2)
    {a : List Token} {q : Suffix} (hq : Derives .suf a q) :
    Derives .suf (a ++ tss.flatMap Prod.fst) ⟨q.ioRedirect ++ tss.map Prod.snd, q.word⟩ := by
  induction tss generalizing a q with
  | nil => simpa using hq
  | cons p tss ih =>
    have := ih (fun x hx => h x (List.mem_cons_of_mem _ hx)) (.sufSnocRedir hq (h p List.mem_cons_self))
    simpa using this

theorem suf_words (tss : List (List Token × Str)) (h : ∀ p ∈ tss, Derives .assignment p.1 p.2 ∨ p.1 = [.word p.2])
    {a : List Token} {q : Suffix} (hq : Derives .suf a q) :
    Derives .suf (a ++ tss.flatMap Prod.fst) ⟨q.ioRedirect, q.word ++ tss.map Prod.snd⟩ := by
  induction tss generalizing a q with
  | nil => simpa using hq
  | cons p tss ih =>
    have h1 : Derives .suf (a ++ p.1) ⟨q.ioRedirect, q.word ++ [p.2]⟩ := by
      rcases h p List.mem_cons_self with h1 | h1
      · exact .sufSnocAssign hq h1
      · rw [h1]; exact .sufSnocWord hq .wordWord
    have := ih (fun x hx => h x (List.mem_cons_of_mem _ hx)) h1
    simpa using this

theorem redirs_list (tss : List (List Token × IoRedirect)) (h : ∀ p ∈ tss, Derives .ioRedirect p.1 p.2)
    {a : List Token} {l : List IoRedirect} (hq : Derives .redirectList a l) :
    Derives .redirectList (a ++ tss.flatMap Prod.fst) (l ++ tss.map Prod.snd) := by
  induction tss generalizing a l with
  | nil => simpa using hq
  | cons p tss ih =>
    have := ih (fun x hx => h x (List.mem_cons_of_mem _ hx)) (.rlSnoc hq (h p List.mem_cons_self))
    simpa using this

theorem Spec.Prefixes.read {p : Prefix} (h : Prefixes p) :
    ∃ ts, Lexed (p.ioRedirect.flatMap redirLexemes ++ p.assignment) ts ∧ Derives .pre ts p := by
  obtain ⟨r, hr1, hr2, hr3⟩ := Redirects.readMore h.redirects
  obtain ⟨s, hs1, hs2, hs3⟩ := Assigns.readMore h.assigns
  refine ⟨_, hr3.append hs3, ?_⟩
  obtain ⟨rs, as⟩ := p
  simp only at hr1 hs1
  subst hr1; subst hs1
  cases r with
  | cons x r =>
    have h1 := pre_redirs r (fun p hp => hr2 p (List.mem_cons_of_mem _ hp)) (.preRedir (hr2 x List.mem_cons_self))
    simpa using pre_assigns s hs2 h1
  | nil =>
    cases s with
    | nil => exact absurd h.some (by simp)
    | cons x s =>
      have h1 := pre_assigns s (fun p hp => hs2 p (List.mem_cons_of_mem _ hp)) (.preAssign (hs2 x List.mem_cons_self))
      simpa using h1

theorem Spec.Suffixes.read {p : Suffix} (h : Suffixes p) :
    ∃ ts, Lexed (p.ioRedirect.flatMap redirLexemes ++ p.word) ts ∧ Derives .suf ts p := by
  obtain ⟨r, hr1, hr2, hr3⟩ := Redirects.readMore h.redirects
  obtain ⟨s, hs1, hs2, hs3⟩ := Suffixes.readWords h.words
  refine ⟨_, hr3.append hs3, ?_⟩
  obtain ⟨rs, as⟩ := p
  simp only at hr1 hs1
  subst hr1; subst hs1
  cases r with
  | cons x r =>
    have h1 := suf_redirs r (fun p hp => hr2 p (List.mem_cons_of_mem _ hp)) (.sufRedir (hr2 x List.mem_cons_self))
    simpa using suf_words s hs2 h1
  | nil =>
    cases s with
    | nil => exact absurd h.some (by simp)
    | cons x s =>
      have h0 : Derives .suf x.1 ⟨[], [x.2]⟩ := by
        rcases hs2 x List.mem_cons_self with h1 | h1
        · exact .sufAssign h1
        · rw [h1]; exact .sufWord
      have h1 := suf_words s (fun p hp => hs2 p (List.mem_cons_of_mem _ hp)) h0
      simpa using h1

theorem Spec.OneWord.ne {s : Str} (h : OneWord s) : s ≠ [] := by cases h <;> simp

theorem Spec.Simple.read {c : SimpleCommand} (h : Simple c) :
    ∃ ts, Lexed (simpleLexemes c) ts ∧ Derives .simpleCommand ts c := by
  obtain ⟨pre, name, suf⟩ := c
  have hname : name ≠ [] → OneWord name := fun hn => by
    rcases h.name with h1 | h1
    · exact h1
    · exact absurd h1.1 hn
  unfold simpleLexemes
  cases pre with
  | none =>
    have hn : OneWord name := by
      rcases h.name with h1 | h1
      · exact h1
      · exact absurd rfl h1.2.1
    rw [if_neg hn.ne]
    cases suf with
    | none => exact ⟨_, .word hn, .scName .cmdNameWord⟩
    | some q =>
      obtain ⟨ts, h1, h2⟩ := (h.suffix q rfl).read
      exact ⟨_, (Lexed.word hn).append h1, .scNameSuf .cmdNameWord h2⟩
  | some p =>
    obtain ⟨ts, h1, h2⟩ := (h.pre p rfl).read
    by_cases hn : name = []
    · subst hn
      have hs : suf = none := by
        rcases h.name with h1 | h1
        · exact absurd rfl h1.ne
        · exact h1.2.2
      subst hs
      refine ⟨ts, ?_, .scPre h2⟩
      simpa using h1
    · rw [if_neg hn]
      cases suf with
      | none => exact ⟨_, h1.append (.word (hname hn)), .scPreWord h2 .cmdWordWord⟩
      | some q =>
        obtain ⟨us, h3, h4⟩ := (h.suffix q rfl).read
        refine ⟨ts ++ [.word name] ++ us, ?_, .scPreWordSuf h2 .cmdWordWord h4⟩
        simpa using h1.append ((Lexed.word (hname hn)).append h3)

/-- Tokens of several items with a separator between them. -/
def joined (sep : Token) : List (List Token × α) → List Token
  | [] => []
  | [p] => p.1
  | p :: q :: ps => p.1 ++ sep :: joined sep (q :: ps)

theorem seq_derives {p : List Token × Command} {ps : List (List Token × Command)}
    (h : ∀ q ∈ p :: ps, Derives .command q.1 q.2) :
    Derives .pipelineSeq (joined .pipe (p :: ps)) ((p :: ps).map Prod.snd) := by
  have key : ∀ (ps : List (List Token × Command)) (a : List Token) (l : List Command), Derives .pipelineSeq a l →
      (∀ q ∈ ps, Derives .command q.1 q.2) →
      Derives .pipelineSeq (a ++ ps.flatMap fun q => .pipe :: q.1) (l ++ ps.map Prod.snd) := by
    intro ps
    induction ps with
    | nil => intro a l h _; simpa using h
    | cons q ps ih =>
      intro a l ha hq
      have := ih _ _ (.psSnoc ha (hq q List.mem_cons_self)) fun x hx => hq x (List.mem_cons_of_mem _ hx)
      simpa using this
  have e : ∀ (ps : List (List Token × Command)) p, joined .pipe (p :: ps) = p.1 ++ ps.flatMap fun q => .pipe :: q.1 := by
    intro ps
    induction ps with
    | nil => intro p; simp [joined]
    | cons q ps ih => intro p; rw [joined, ih q]; simp
  rw [e]
  exact key ps p.1 [p.2] (.psOne (h p List.mem_cons_self)) fun x hx => h x (List.mem_cons_of_mem _ hx)

theorem list_derives {p : List Token × AndOr} {ps : List (List Token × AndOr)}
    (h : ∀ q ∈ p :: ps, Derives .andOr q.1 q.2) :
    Derives .list (joined .semi (p :: ps)) ((p :: ps).map Prod.snd) ∧
    Derives .term (joined .semi (p :: ps)) ((p :: ps).map Prod.snd) := by
  have key : ∀ (ps : List (List Token × AndOr)) (a : List Token) (l : List AndOr), Derives .list a l ∧ Derives .term a l →
      (∀ q ∈ ps, Derives .andOr q.1 q.2) →
      Derives .list (a ++ ps.flatMap fun q => .semi :: q.1) (l ++ ps.map Prod.snd) ∧
      Derives .term (a ++ ps.flatMap fun q => .semi :: q.1) (l ++ ps.map Prod.snd) := by
    intro ps
    induction ps with
    | nil => intro a l h _; simpa using h
    | cons q ps ih =>
      intro a l ha hq
      have := ih _ _ ⟨.listSnoc ha.1 .sepOpSemi (hq q List.mem_cons_self), .termSnoc ha.2 .sepSemi (hq q List.mem_cons_self)⟩
        fun x hx => hq x (List.mem_cons_of_mem _ hx)
      simpa using this
  have e : ∀ (ps : List (List Token × AndOr)) p, joined .semi (p :: ps) = p.1 ++ ps.flatMap fun q => .semi :: q.1 := by
    intro ps
    induction ps with
    | nil => intro p; simp [joined]
    | cons q ps ih => intro p; rw [joined, ih q]; simp
  rw [e]
  exact key ps p.1 [p.2] ⟨.listOne (h p List.mem_cons_self), .termOne (h p List.mem_cons_self)⟩
    fun x hx => h x (List.mem_cons_of_mem _ hx)

mutual
theorem Spec.Chain.read {a : AndOr} (h : Chain a) : ∃ ts, Lexed (chainLexemes a) ts ∧ Derives .andOr ts a := by
  cases h with
  | one hp =>
    obtain ⟨ts, h1, h2⟩ := Spec.Pipe.read hp
    exact ⟨ts, by unfold chainLexemes; exact h1, .aoOne h2⟩
  | @more l o p hl hp =>
    obtain ⟨ts, h1, h2⟩ := Spec.Chain.read hl
    obtain ⟨us, h3, h4⟩ := Spec.Pipe.read hp
    cases o with
    | and =>
      refine ⟨ts ++ [.and] ++ us, ?_, .aoAnd h2 h4⟩
      unfold chainLexemes
      rw [List.append_assoc]
      exact h1.append ((Lexed.op .and rfl rfl).cons h3)
    | or =>
      refine ⟨ts ++ [.or] ++ us, ?_, .aoOr h2 h4⟩
      unfold chainLexemes
      rw [List.append_assoc]
      exact h1.append ((Lexed.op .or rfl rfl).cons h3)
theorem Spec.Pipe.read {p : Pipeline} (h : Pipe p) : ∃ ts, Lexed (pipeLexemes p) ts ∧ Derives .pipeline ts p := by
  cases h with
  | @mk bang cs bg hc hb =>
    obtain ⟨ps, e, hps, h1, h2⟩ := Spec.Cmds.read hc
    obtain ⟨q, qs, rfl⟩ := List.exists_cons_of_ne_nil hps
    have h2 := seq_derives h2
    rw [e] at h2
    cases bang with
    | false =>
      cases bg with
      | false =>
        refine ⟨_, ?_, .plSeq h2⟩
        unfold pipeLexemes
        simpa using h1
      | true =>
        refine ⟨_, ?_, .plBg h2 .bgOp⟩
        unfold pipeLexemes
        exact h1.append (Lexed.op .amp rfl rfl)
    | true =>
      obtain rfl := hb rfl
      refine ⟨_, ?_, .plBang h2⟩
      unfold pipeLexemes
      exact (Lexed.op .bang rfl rfl).append (by simpa using h1)
theorem Spec.Cmds.read {cs : List Command} (h : Cmds cs) :
    ∃ ps : List (List Token × Command), ps.map Prod.snd = cs ∧ ps ≠ [] ∧ Lexed (cmdsLexemes cs) (joined .pipe ps) ∧
      ∀ q ∈ ps, Derives .command q.1 q.2 := by
  cases h with
  | one hc =>
    obtain ⟨ts, h1, h2⟩ := Spec.Cmd.read hc
    exact ⟨[(ts, _)], rfl, by simp, by unfold cmdsLexemes; exact h1, by simpa using h2⟩
  | @more c cs hc hcs =>
    obtain ⟨ts, h1, h2⟩ := Spec.Cmd.read hc
    obtain ⟨ps, e, hps, h3, h4⟩ := Spec.Cmds.read hcs
    obtain ⟨q, qs, rfl⟩ := List.exists_cons_of_ne_nil hps
    refine ⟨(ts, c) :: q :: qs, by simp [← e], by simp, ?_, ?_⟩
    · subst e
      rw [List.map_cons, cmdsLexemes, joined]
      exact h1.append ((Lexed.op .pipe rfl rfl).cons h3)
    · intro x hx
      rcases List.mem_cons.1 hx with rfl | hx
      · exact h2
      · exact h4 x hx
theorem Spec.Cmd.read {c : Command} (h : Cmd c) : ∃ ts, Lexed (cmdLexemes c) ts ∧ Derives .command ts c := by
  cases h with
  | simple hc =>
    obtain ⟨ts, h1, h2⟩ := hc.read
    exact ⟨ts, by unfold cmdLexemes; exact h1, .cmdSimple h2⟩
  | group hl =>
    obtain ⟨ps, e, hps, h1, h2⟩ := Spec.Program.read hl
    obtain ⟨q, qs, rfl⟩ := List.exists_cons_of_ne_nil hps
    have h2 := (list_derives h2).2
    rw [e] at h2
    refine ⟨_, ?_, .cmdCompound (.ccBrace (.brace (.clTerm h2)))⟩
    unfold cmdLexemes groupLexemes
    rw [List.append_assoc]
    exact Lexed.lbrace.cons (h1.append Lexed.rbrace)
  | func hf hl =>
    obtain ⟨ps, e, hps, h1, h2⟩ := Spec.Program.read hl
    obtain ⟨q, qs, rfl⟩ := List.exists_cons_of_ne_nil hps
    have h2 := (list_derives h2).2
    rw [e] at h2
    refine ⟨_, ?_, .cmdFunc (.fd .functionName (.fbody (.ccBrace (.brace (.clTerm h2)))))⟩
    unfold cmdLexemes bodyLexemes groupLexemes
    have h3 := Lexed.lbrace.cons (h1.append Lexed.rbrace)
    have h4 := (Lexed.word hf).append ((Lexed.lparen.append Lexed.rparen).append h3)
    simpa using h4
  | @funcRedir f l r rs hf hl hr =>
    obtain ⟨ps, e, hps, h1, h2⟩ := Spec.Program.read hl
    obtain ⟨q, qs, rfl⟩ := List.exists_cons_of_ne_nil hps
    have h2 := (list_derives h2).2
    rw [e] at h2
    obtain ⟨tss, e1, d1, l1⟩ := Redirects.readMore hr
    cases tss with
    | nil => simp at e1
    | cons x tss =>
      have hd := redirs_list tss (fun p hp => d1 p (List.mem_cons_of_mem _ hp)) (.rlOne (d1 x List.mem_cons_self))
      have e2 : [x.2] ++ tss.map Prod.snd = r :: rs := by simpa using e1
      rw [e2] at hd
      refine ⟨_, ?_, .cmdFunc (.fd .functionName (.fbodyRedir (.ccBrace (.brace (.clTerm h2))) hd))⟩
      unfold cmdLexemes bodyLexemes groupLexemes
      have h3 := (Lexed.lbrace.cons (h1.append Lexed.rbrace)).append l1
      have h4 := (Lexed.word hf).append ((Lexed.lparen.append Lexed.rparen).append h3)
      simpa using h4
theorem Spec.Program.read {l : List AndOr} (h : Program l) :
    ∃ ps : List (List Token × AndOr), ps.map Prod.snd = l ∧ ps ≠ [] ∧ Lexed (programLexemes l) (joined .semi ps) ∧
      ∀ q ∈ ps, Derives .andOr q.1 q.2 := by
  cases h with
  | one hc =>
    obtain ⟨ts, h1, h2⟩ := Spec.Chain.read hc
    exact ⟨[(ts, _)], rfl, by simp, by unfold programLexemes; exact h1, by simpa using h2⟩
  | @more a as hc hcs =>
    obtain ⟨ts, h1, h2⟩ := Spec.Chain.read hc
    obtain ⟨ps, e, hps, h3, h4⟩ := Spec.Program.read hcs
    obtain ⟨q, qs, rfl⟩ := List.exists_cons_of_ne_nil hps
    refine ⟨(ts, a) :: q :: qs, by simp [← e], by simp, ?_, ?_⟩
    · subst e
      rw [List.map_cons, programLexemes, joined]
      exact h1.append ((Lexed.op .semi rfl rfl).cons h3)
    · intro x hx
      rcases List.mem_cons.1 hx with rfl | hx
      · exact h2
      · exact h4 x hx
end

theorem parse_program {l : List AndOr} (h : Program l) : parse (programText l) = some (some l) := by
  obtain ⟨ps, e, hps, h1, h2⟩ := h.read
  obtain ⟨q, qs, rfl⟩ := List.exists_cons_of_ne_nil hps
  have h2 := (list_derives h2).1
  rw [e] at h2
  have h3 := h1 [] (by simp)
  rw [List.append_nil, toks_nil, Option.map_some] at h3
  unfold parse programText
  rw [lex_toks, h3, Option.bind_some]
  exact parseTokens_complete (.ccListSep h2 .sepEof)

/-! ## What the trees of accepted texts look like -/

/-- The words are whole, the numbers fit, and there are no other values. -/
def TokenOk : Token → Prop
  | .word s => OneWord s
  | .number n => -2147483648 ≤ n ∧ n ≤ 2147483647
  | .subshell _ => False
  | _ => True

/-- The values of the nonterminals. -/
def ValOk : (n : NT) → Val n → Prop
  | .completeCommand, v => ∀ l, v = some l → Program l
  | .list, l | .term, l | .compoundList, l | .braceGroup, l => Program l
  | .andOr, a => Chain a
  | .pipeline, p => Pipe p
  | .pipelineSeq, cs => Cmds cs
  | .command, c => Cmd c
  | .compoundCommand, c => ∃ l, c = .braceGroup l ∧ Program l
  | .functionDefinition, v => Cmd (.funcDef v.1 v.2)
  | .functionBody, b => ∀ f, OneWord f → Cmd (.funcDef f b)
  | .simpleCommand, c => Simple c
  | .pre, p => Prefixes p
  | .suf, p => Suffixes p
  | .ioRedirect, r => Redirects r
  | .ioFile, f => f.ty ≠ .clobber ∧ OneWord f.filename
  | .redirectList, l => l ≠ [] ∧ ∀ r ∈ l, Redirects r
  | .assignment, a => Assigns a
  | .subshell, s | .functionName, s | .cmdName, s | .cmdWord, s | .word, s => OneWord s
  | .cmdSepOp, _ | .cmdBackgroundOp, _ | .separator, _ => True

theorem Spec.Cmds.snoc {cs : List Command} {c : Command} (h : Cmds cs) (hc : Cmd c) : Cmds (cs ++ [c]) := by
  induction cs with
  | nil => exact .one hc
  | cons d ds ih =>
    cases h with
    | one hd => exact .more hd (.one hc)
    | more hd hds => exact .more hd (ih hds)

theorem Spec.Program.snoc {as : List AndOr} {a : AndOr} (h : Program as) (ha : Chain a) : Program (as ++ [a]) := by
  induction as with
  | nil => exact .one ha
  | cons d ds ih =>
    cases h with
    | one hd => exact .more hd (.one ha)
    | more hd hds => exact .more hd (ih hds)

theorem valOk {n ts v} (h : Derives n ts v) (hts : ∀ t ∈ ts, TokenOk t) : ValOk n v := by
  induction h with
  | ccSepList _ _ _ ih | ccListSep _ _ ih _ =>
    rintro l ⟨⟩
    exact ih fun t ht => hts t (by simp [ht])
  | ccList _ ih => rintro l ⟨⟩; exact ih hts
  | ccSep _ _ => rintro l ⟨⟩
  | listSnoc _ _ _ ih1 _ ih3 =>
    exact (ih1 fun t ht => hts t (by simp [ht])).snoc (ih3 fun t ht => hts t (by simp [ht]))
  | listOne _ ih => exact .one (ih hts)
  | aoOne _ ih => exact .one (ih hts)
  | aoAnd _ _ ih1 ih2 | aoAndNl _ _ ih1 ih2 | aoOr _ _ ih1 ih2 | aoOrNl _ _ ih1 ih2 =>
    exact .more (ih1 fun t ht => hts t (by simp [ht])) (ih2 fun t ht => hts t (by simp [ht]))
  | plSeq _ ih => exact .mk (ih hts) (by simp)
  | plBang _ ih => exact .mk (ih fun t ht => hts t (by simp [ht])) (by simp)
  | plBg _ _ ih _ => exact .mk (ih fun t ht => hts t (by simp [ht])) (by simp)
  | plBangBg _ _ ih _ => exact .mk (ih fun t ht => hts t (by simp [ht])) (by simp)
  | psOne _ ih => exact .one (ih hts)
  | psSnoc _ _ ih1 ih2 =>
    exact (ih1 fun t ht => hts t (by simp [ht])).snoc (ih2 fun t ht => hts t (by simp [ht]))
  | cmdSimple _ ih => exact .simple (ih hts)
  | cmdFunc _ ih => exact ih hts
  | cmdCompound _ ih =>
    obtain ⟨l, rfl, hl⟩ := ih hts
    exact .group hl
  | ccBrace _ ih => exact ⟨_, rfl, ih hts⟩
  | subshell => exact (hts _ List.mem_cons_self).elim
  | termSnoc _ _ _ ih1 _ ih3 =>
    exact (ih1 fun t ht => hts t (by simp [ht])).snoc (ih3 fun t ht => hts t (by simp [ht]))
  | termOne _ ih => exact .one (ih hts)
  | clTerm _ ih => exact ih hts
  | clNlTerm _ ih => exact ih fun t ht => hts t (by simp [ht])
  | clTermSep _ _ ih _ => exact ih fun t ht => hts t (by simp [ht])
  | clNlTermSep _ _ ih _ => exact ih fun t ht => hts t (by simp [ht])
  | brace _ ih => exact ih fun t ht => hts t (by simp [ht])
  | functionName => exact hts _ List.mem_cons_self
  | fdNl _ _ ih1 ih2 | fd _ _ ih1 ih2 =>
    exact ih2 (fun t ht => hts t (by simp [ht])) _ (ih1 fun t ht => hts t (by simp [ht]))
  | fbody _ ih =>
    intro f hf
    obtain ⟨l, rfl, hl⟩ := ih hts
    exact .func hf hl
  | fbodyRedir _ _ ih1 ih2 =>
    intro f hf
    obtain ⟨l, rfl, hl⟩ := ih1 fun t ht => hts t (by simp [ht])
    obtain ⟨h1, h2⟩ := ih2 fun t ht => hts t (by simp [ht])
    obtain ⟨r, rs, rfl⟩ := List.exists_cons_of_ne_nil h1
    exact .funcRedir hf hl h2
  | scPreWordSuf _ _ _ ih1 ih2 ih3 =>
    refine ⟨?_, ?_, .inl (ih2 fun t ht => hts t (by simp [ht]))⟩
    · rintro p ⟨⟩; exact ih1 fun t ht => hts t (by simp [ht])
    · rintro p ⟨⟩; exact ih3 fun t ht => hts t (by simp [ht])
  | scPreWord _ _ ih1 ih2 =>
    refine ⟨?_, (by rintro p ⟨⟩), .inl (ih2 fun t ht => hts t (by simp [ht]))⟩
    rintro p ⟨⟩; exact ih1 fun t ht => hts t (by simp [ht])
  | scNameSuf _ _ ih1 ih2 =>
    refine ⟨(by rintro p ⟨⟩), ?_, .inl (ih1 fun t ht => hts t (by simp [ht]))⟩
    rintro p ⟨⟩; exact ih2 fun t ht => hts t (by simp [ht])
  | scName _ ih => exact ⟨(by rintro p ⟨⟩), (by rintro p ⟨⟩), .inl (ih hts)⟩
  | scPre _ ih =>
    refine ⟨?_, (by rintro p ⟨⟩), .inr ⟨rfl, by simp, rfl⟩⟩
    rintro p ⟨⟩; exact ih hts
  | preRedir _ ih =>
    refine ⟨?_, by simp, by simp⟩
    intro r hr
    rw [List.mem_singleton.1 hr]
    exact ih hts
  | preSnocRedir _ _ ih1 ih2 =>
    have h1 := ih1 fun t ht => hts t (by simp [ht])
    have h2 := ih2 fun t ht => hts t (by simp [ht])
    refine ⟨?_, h1.assigns, by simp⟩
    intro r hr
    rcases List.mem_append.1 hr with hr | hr
    · exact h1.redirects r hr
    · rw [List.mem_singleton.1 hr]; exact h2
  | preAssign _ ih =>
    refine ⟨by simp, ?_, by simp⟩
    intro r hr
    rw [List.mem_singleton.1 hr]
    exact ih hts
  | preSnocAssign _ _ ih1 ih2 =>
    have h1 := ih1 fun t ht => hts t (by simp [ht])
    have h2 := ih2 fun t ht => hts t (by simp [ht])
    refine ⟨h1.redirects, ?_, by simp⟩
    intro r hr
    rcases List.mem_append.1 hr with hr | hr
    · exact h1.assigns r hr
    · rw [List.mem_singleton.1 hr]; exact h2
  | sufRedir _ ih =>
    refine ⟨?_, by simp, by simp⟩
    intro r hr
    rw [List.mem_singleton.1 hr]
    exact ih hts
  | sufSnocRedir _ _ ih1 ih2 =>
    have h1 := ih1 fun t ht => hts t (by simp [ht])
    have h2 := ih2 fun t ht => hts t (by simp [ht])
    refine ⟨?_, h1.words, by simp⟩
    intro r hr
    rcases List.mem_append.1 hr with hr | hr
    · exact h1.redirects r hr
    · rw [List.mem_singleton.1 hr]; exact h2
  | sufWord =>
    refine ⟨by simp, ?_, by simp⟩
    intro a ha
    rw [List.mem_singleton.1 ha]
    exact .inl (hts _ List.mem_cons_self)
  | sufSnocWord _ _ ih1 ih2 =>
    have h1 := ih1 fun t ht => hts t (by simp [ht])
    have h2 := ih2 fun t ht => hts t (by simp [ht])
    refine ⟨h1.redirects, ?_, by simp⟩
    intro r hr
    rcases List.mem_append.1 hr with hr | hr
    · exact h1.words r hr
    · rw [List.mem_singleton.1 hr]; exact .inl h2
  | sufAssign _ ih =>
    refine ⟨by simp, ?_, by simp⟩
    intro a ha
    rw [List.mem_singleton.1 ha]
    exact .inr (ih hts)
  | sufSnocAssign _ _ ih1 ih2 =>
    have h1 := ih1 fun t ht => hts t (by simp [ht])
    have h2 := ih2 fun t ht => hts t (by simp [ht])
    refine ⟨h1.redirects, ?_, by simp⟩
    intro r hr
    rcases List.mem_append.1 hr with hr | hr
    · exact h1.words r hr
    · rw [List.mem_singleton.1 hr]; exact .inr h2
  | @redir a f _ ih =>
    obtain ⟨h1, h2⟩ := ih hts
    obtain ⟨ty, f⟩ := f
    exact .mk (by simp) h1 h2
  | @redirNum a f n _ ih =>
    obtain ⟨h1, h2⟩ := ih fun t ht => hts t (by simp [ht])
    obtain ⟨ty, f⟩ := f
    refine .mk ?_ h1 h2
    rintro k ⟨⟩
    exact hts (.number n) (by simp)
  | fileIn _ ih | fileOut _ ih | fileApp _ ih => exact ⟨by simp, ih fun t ht => hts t (by simp [ht])⟩
  | rlOne _ ih =>
    refine ⟨by simp, ?_⟩
    intro r hr
    rw [List.mem_singleton.1 hr]
    exact ih hts
  | rlSnoc _ _ ih1 ih2 =>
    have h1 := ih1 fun t ht => hts t (by simp [ht])
    have h2 := ih2 fun t ht => hts t (by simp [ht])
    refine ⟨by simp, ?_⟩
    intro r hr
    rcases List.mem_append.1 hr with hr | hr
    · exact h1.2 r hr
    · rw [List.mem_singleton.1 hr]; exact h2
  | @assign a v w _ ih => exact ⟨v, w, hts (.word v) (by simp), ih fun t ht => hts t (by simp [ht]), rfl⟩
  | cmdNameWord | cmdWordWord | wordWord => exact hts _ List.mem_cons_self
  | cmdNameSub _ ih | cmdWordSub _ ih | wordSub _ ih => exact ih hts
  | sepOpSemi | sepOpNl | bgOp | sepSemi | sepSemiNlNl | sepSemiNlNlEof | sepNl | sepEof | sepNlEof | sepNlNl
  | sepNlNlEof | sepSemiEof => trivial

/-! ## The words of a text -/

/-- What is known of a token at the beginning of a text: `rest` is what follows it. -/
def TokAt (rest : Str) : Token → Prop
  | .word s => OneWord s ∨ (Unclosed s ∧ rest = [])
  | .subshell _ => False
  | _ => True

/-- The same of a whole step of the lexer. -/
def ScanAt : Scan → Prop
  | .tok _ _ t _ rest => TokAt rest t
  | _ => True

theorem ScanAt.skipping {sc : Scan} (h : ScanAt sc) (k : Str) : ScanAt (sc.skipping k) := by
  cases sc <;> exact h

theorem scanDelim_at {c d : Char} {cs : Str} (h : c = d ∧ c ∈ ['"', '\'', '`'] ∨ (c = '$' ∧ d = ')' ∧ ∃ t, cs = '(' :: t)) :
    ScanAt (scanDelim c d cs) := by
  by_cases hd : d ∈ cs
  · obtain ⟨a, b, rfl, ha⟩ := List.eq_append_cons_of_mem hd
    obtain ⟨h1, h2⟩ := takeWhile_ne (b := b) ha
    unfold scanDelim
    simp only [h1, h2, List.take_succ_cons, List.take_zero]
    refine .inl ?_
    rcases h with ⟨rfl, hc⟩ | ⟨rfl, rfl, t, ht⟩
    · exact .quoted hc ha
    · cases a with
      | nil => simp at ht
      | cons x a =>
        simp only [List.cons_append, List.cons.injEq] at ht
        obtain ⟨rfl, -⟩ := ht
        exact .subst fun h => ha (List.mem_cons_of_mem _ h)
  · obtain ⟨h1, h2⟩ := takeWhile_ne_all hd
    unfold scanDelim
    simp only [h1, h2, List.take_nil, List.append_nil, List.drop_nil]
    refine .inr ⟨?_, rfl⟩
    rcases h with ⟨rfl, hc⟩ | ⟨rfl, rfl, t, rfl⟩
    · exact .quoted hc hd
    · exact .subst fun h => hd (List.mem_cons_of_mem _ h)

theorem wordToken_reserved {w : Str} {o : Option Char} (h : w ∈ reserved) (v : Str) : wordToken o w ≠ .word v := by
  simp only [reserved, List.mem_cons, List.not_mem_nil, or_false] at h
  rcases h with rfl | rfl | rfl | rfl | rfl | rfl | rfl | rfl | rfl | rfl | rfl | rfl <;> simp [wordToken]

theorem wordToken_subshell {w : Str} {o : Option Char} (v : Str) : wordToken o w ≠ .subshell v := by
  unfold wordToken
  iterate 12
    refine iteInduction (motive := fun t => t ≠ Token.subshell v) (fun _ => by simp) (fun _ => ?_)
  rcases numOrWord_cases o w with h | ⟨n, h, -⟩ <;> simp [h]

theorem mem_takeWhile {p : Char → Bool} {l : Str} {c : Char} (h : c ∈ l.takeWhile p) : p c = true := by
  induction l with
  | nil => simp at h
  | cons d ds ih =>
    rw [List.takeWhile_cons] at h
    split at h
    · rcases List.mem_cons.1 h with rfl | h
      · assumption
      · exact ih h
    · simp at h

theorem scanWord_at {c : Char} {cs : Str} (h : wordHead c = true ∨ c = '$') : ScanAt (scanWord c cs) := by
  unfold scanWord
  show TokAt _ (wordToken _ _)
  cases ht : wordToken (cs.dropWhile isWordContinue).head? (c :: cs.takeWhile isWordContinue) with
  | word s =>
    refine .inl ?_
    have hs : s = c :: cs.takeWhile isWordContinue := by
      rcases wordToken_cases (cs.dropWhile isWordContinue).head? (c :: cs.takeWhile isWordContinue) with h | ⟨n, h, -⟩ | ⟨h, -⟩
      · rw [h] at ht; cases ht; rfl
      · rw [h] at ht; cases ht
      · exact absurd ht (h s)
    subst hs
    have hw : ∀ d ∈ cs.takeWhile isWordContinue, WordChar d := fun d hd => WordChar.iff.2 (mem_takeWhile hd)
    rcases h with h | rfl
    · simp only [wordHead, Bool.and_eq_true, bne_iff_ne, ne_eq] at h
      refine .plain ?_ (by simp [h]) fun hr => wordToken_reserved hr _ ht
      intro d hd
      rcases List.mem_cons.1 hd with rfl | hd
      · exact WordChar.iff.2 h.1.1.1
      · exact hw d hd
    · exact .dollar hw
  | subshell s => exact wordToken_subshell _ ht
  | _ => trivial

theorem scanPair_at {c : Char} {alts : List (Char × Token)} {t : Token} {cs : Str}
    (h : ∀ rest, ∀ u ∈ t :: alts.map Prod.snd, TokAt rest u) : ScanAt (scanPair c alts t cs) := by
  cases cs with
  | nil => exact h _ _ List.mem_cons_self
  | cons d ds =>
    simp only [scanPair]
    cases hl : alts.lookup d with
    | none => exact h _ _ List.mem_cons_self
    | some u => exact h _ _ (List.mem_cons_of_mem _ (List.mem_map.2 ⟨_, lookup_mem hl, rfl⟩))

theorem isWordStart_ascii : ∀ n < 128, isWordStart (Char.ofNat n) = isWordContinue (Char.ofNat n) := by
  decide +kernel

theorem isWordStart_continue {c : Char} (h : isWordStart c = true) : isWordContinue c = true := by
  by_cases hc : c.toNat < 128
  · have h1 := isWordStart_ascii c.toNat hc
    rw [Char.ofNat_toNat] at h1
    rw [← h1]
    exact h
  · unfold isWordStart at h
    split at h
    · next hs =>
      exfalso
      refine hc ?_
      rcases hs with hs | hs | rfl | hs | rfl | rfl
      · exact Nat.lt_of_le_of_lt (show c.toNat ≤ 122 from hs.2) (by decide)
      · exact Nat.lt_of_le_of_lt (show c.toNat ≤ 90 from hs.2) (by decide)
      · decide
      · exact Nat.lt_of_le_of_lt (show c.toNat ≤ 57 from hs.2) (by decide)
      · decide
      · decide
    · exact h

theorem scan_at (n : Nat) (s : Str) : ScanAt (scan n s) := by
  induction n generalizing s with
  | zero => trivial
  | succ n ih =>
    cases s with
    | nil => trivial
    | cons c cs =>
      rw [scan]
      iterate 2
        refine iteInduction (motive := ScanAt) (fun _ => trivial) (fun _ => ?_)
      refine iteInduction (motive := ScanAt) (fun _ => scanPair_at ?_) (fun _ => ?_)
      · intro rest u hu; simp at hu; rcases hu with rfl | rfl <;> trivial
      refine iteInduction (motive := ScanAt) (fun _ => scanPair_at ?_) (fun _ => ?_)
      · intro rest u hu; simp at hu; rcases hu with rfl | rfl <;> trivial
      refine iteInduction (motive := ScanAt) (fun h => scanDelim_at (.inl ⟨h, by simp [h]⟩)) (fun _ => ?_)
      refine iteInduction (motive := ScanAt) (fun h => ?_) (fun h_dollar => ?_)
      · split
        · next e =>
          refine scanDelim_at (.inr ⟨h, rfl, ?_⟩)
          cases cs with
          | nil => simp at e
          | cons d ds => simp at e; exact ⟨ds, by rw [e]⟩
        · trivial
        · exact scanWord_at (.inr h)
      refine iteInduction (motive := ScanAt) (fun _ => (ih _).skipping _) (fun h_hash => ?_)
      iterate 4
        refine iteInduction (motive := ScanAt) (fun _ => trivial) (fun _ => ?_)
      refine iteInduction (motive := ScanAt) (fun _ => scanPair_at ?_) (fun _ => ?_)
      · intro rest u hu; simp at hu; rcases hu with rfl | rfl | rfl <;> trivial
      refine iteInduction (motive := ScanAt) (fun _ => scanPair_at ?_) (fun _ => ?_)
      · intro rest u hu; simp at hu; rcases hu with rfl | rfl | rfl <;> trivial
      refine iteInduction (motive := ScanAt) (fun _ => trivial) (fun _ => ?_)
      refine iteInduction (motive := ScanAt) (fun h => scanDelim_at (.inl ⟨h, by simp [h]⟩)) (fun h_dq => ?_)
      refine iteInduction (motive := ScanAt) (fun h => scanDelim_at (.inl ⟨h, by simp [h]⟩)) (fun h_sq => ?_)
      refine iteInduction (motive := ScanAt) (fun _ => trivial) (fun _ => ?_)
      refine iteInduction (motive := ScanAt) (fun hs => scanWord_at (.inl ?_)) (fun _ => ?_)
      · have hc := isWordStart_continue hs
        simp [wordHead, hc, h_hash, h_dq, h_sq]
      refine iteInduction (motive := ScanAt) (fun _ => (ih _).skipping _) (fun _ => trivial)

theorem parseI32_range {w : Str} {n : Int} (h : parseI32 w = some n) : -2147483648 ≤ n ∧ n ≤ 2147483647 := by
  unfold parseI32 at h
  split at h
  all_goals
    obtain ⟨k, -, hk⟩ := Option.bind_eq_some_iff.1 h
    split at hk
    · cases hk; omega
    · cases hk

theorem toks_words {s : Str} {ts : List Token} (h : toks s = some ts) :
    ∀ t ∈ ts, TokenOk t ∨ ∃ w pre, t = .word w ∧ Unclosed w ∧ s = pre ++ w := by
  generalize hn : s.length = n
  induction n using Nat.strongRecOn generalizing s ts with
  | ind n ih =>
    rw [toks_eq] at h
    have hok := scanT_ok s
    have hat : ScanAt (scanT s) := scan_at _ _
    cases hs : scanT s with
    | done =>
      rw [hs] at h
      cases h
      intro t ht
      rw [List.mem_singleton.1 ht]
      exact .inl trivial
    | bad k c x => rw [hs] at h; cases h
    | tok k raw t j x =>
      rw [hs] at h hok hat
      obtain ⟨h1, h2, h3, h4, h5, h6⟩ := hok
      have hr := raw_pos h3 h4
      have hl : s.length = k.length + raw.length + x.length := by rw [h1]; simp [Nat.add_assoc]
      obtain ⟨us, hu, rfl⟩ := Option.map_eq_some_iff.1 h
      intro u hu'
      rcases List.mem_cons.1 hu' with rfl | hu'
      · cases u with
        | word w =>
          rcases hat with hat | ⟨hat, rfl⟩
          · exact .inl hat
          · exact .inr ⟨w, k, rfl, hat, by rw [h1, List.append_nil, (h5 w rfl).1]⟩
        | number m => exact .inl (parseI32_range (h6 m rfl).1)
        | subshell _ => exact hat.elim
        | _ => exact .inl trivial
      · rcases ih x.length (by omega) hu rfl u hu' with hh | ⟨w, pre, e, hw, hx⟩
        · exact .inl hh
        · exact .inr ⟨w, k ++ raw ++ pre, e, hw, by rw [h1, hx]; simp⟩

end Rsh
