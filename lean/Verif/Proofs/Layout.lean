import Verif.Proofs.Typing
import Verif.Spec.Layout

/-!
# Lexing lines with any layout
-/

namespace Rsh

open Spec

/-- The token of an operator. -/
def Spec.Op.token : Op → Token
  | .semi => .semi
  | .pipe => .pipe
  | .or => .or
  | .amp => .amp
  | .and => .and
  | .bang => .bang
  | .less => .less
  | .great => .great
  | .dgreat => .dgreat
  | .eq => .eq

/-- The tokens of a word or operator. -/
def Spec.Sym.tokens : Sym → List Token
  | .word t => [.word t.text]
  | .op o => [o.token]
  | .num n o => [.number n, o.token]

/-- The character may come right after the operator. -/
def OpFollow : Op → Char → Prop
  | .pipe, c => c ≠ '|'
  | .amp, c => c ≠ '&'
  | .less, c => c ≠ '<' ∧ c ≠ '&'
  | .great, c => c ≠ '>' ∧ c ≠ '&'
  | _, _ => True

/-- The character may come right after it. -/
def CanFollow : Sym → Char → Prop
  | .word t, c => t.Open → isWordContinue c = false ∧ (c = '<' ∨ c = '>' → ¬ Numeral t.text)
  | .op o, c => OpFollow o c
  | .num _ o, c => OpFollow o c

theorem parseDigits_digits {ds : Str} {n : Nat} (h : parseDigits ds = some n) : ∀ c ∈ ds, isDigit10 c = true := by
  unfold parseDigits at h
  split at h
  · cases h
  · split at h
    · next e => simpa using e
    · cases h

theorem parseI32_numeral {w : Str} {n : Int} (h : parseI32 w = some n) : Numeral w := by
  intro c hc
  unfold parseI32 at h
  split at h
  · next ds =>
    obtain ⟨k, hk, -⟩ := Option.bind_eq_some_iff.1 h
    rcases List.mem_cons.1 hc with rfl | hc
    · decide
    · exact isDigit10_mem (parseDigits_digits hk c hc)
  · next ds =>
    obtain ⟨k, hk, -⟩ := Option.bind_eq_some_iff.1 h
    rcases List.mem_cons.1 hc with rfl | hc
    · decide
    · exact isDigit10_mem (parseDigits_digits hk c hc)
  · obtain ⟨k, hk, -⟩ := Option.bind_eq_some_iff.1 h
    exact isDigit10_mem (parseDigits_digits hk c hc)

theorem wordToken_free {w : Str} {o : Option Char} (h : w ∉ reserved)
    (ho : ∀ c, o = some c → (c = '<' ∨ c = '>') → ¬ Numeral w) : wordToken o w = .word w := by
  cases o with
  | none => exact wordToken_plain h rfl
  | some c =>
    by_cases hc : c = '<' ∨ c = '>'
    · have hn : parseI32 w = none := by
        cases hp : parseI32 w with
        | none => rfl
        | some n => exact absurd (parseI32_numeral hp) (ho c rfl hc)
      have e := wordToken_plain (o := none) h rfl
      unfold wordToken at e ⊢
      simp only [reserved, List.mem_cons, List.not_mem_nil, or_false, not_or] at h
      obtain ⟨h1, h2, h3, h4, h5, h6, h7, h8, h9, h10, h11, h12⟩ := h
      rw [if_neg h1, if_neg h2, if_neg h3, if_neg h4, if_neg h5, if_neg h6, if_neg h7, if_neg h8,
        if_neg h9, if_neg h10, if_neg h11, if_neg h12]
      simp [numOrWord, hc, hn]
    · exact wordToken_plain h (by simpa using hc)

theorem toks_typed {t : Typed} (h : t.Ok) {rest : Str}
    (hr : ∀ c, rest.head? = some c → CanFollow (.word t) c) :
    toks (t.text ++ rest) = (toks rest).map (.word t.text :: ·) := by
  have hcont : t.Open → rest.head?.all (fun c => !isWordContinue c) = true := by
    intro ho
    cases hh : rest.head? with
    | none => rfl
    | some c => simpa using (hr c hh ho).1
  cases t with
  | plain w =>
    obtain ⟨h1, h2, h3⟩ := h
    show toks (w ++ rest) = _
    rw [toks_word w rest h1 ?_ ?_ (hcont trivial), wordToken_free h3 (fun c hc => (hr c hc trivial).2)]
    · rfl
    · cases w with
      | nil => simp at h1
      | cons c cs => simpa using plain_head (h2 c List.mem_cons_self)
    · rw [List.all_eq_true]
      exact fun c hc => plain_continue (h2 c hc)
  | mixed w =>
    obtain ⟨h1, h2, h3⟩ := mixedWord_parts h
    show toks (w ++ rest) = _
    rw [toks_word w rest h1 h2 h3 (hcont trivial), wordToken_free h.2.2 (fun c hc => (hr c hc trivial).2)]
    rfl
  | single t => simpa [Typed.text] using toks_delim t rest scanT_squote h
  | double t => simpa [Typed.text] using toks_delim t rest scanT_dquote h
  | backtick t => simpa [Typed.text] using toks_delim t rest scanT_backtick h
  | subst t =>
    have := C07_substitution t rest h
    rw [lex_toks, lex_toks] at this
    simpa [Typed.text] using this
  | var n =>
    obtain ⟨h1, h2⟩ := h
    cases n with
    | nil => exact absurd rfl h1
    | cons c cs =>
      have hall : (c :: cs).all isWordContinue = true := by
        rw [List.all_eq_true]; exact fun d hd => plain_continue (h2 d hd)
      obtain ⟨e1, e2⟩ := takeWhile_append_of_all hall (hcont trivial)
      have hc := (h2 c List.mem_cons_self).2
      have hs := scanT_dollarWord c (cs ++ rest)
        ⟨by rintro rfl; exact hc (by decide), by rintro rfl; exact hc (by decide)⟩
      rw [← List.cons_append, scanWord, e1, e2] at hs
      have := toks_of_tok hs
      rw [wordToken_free (w := '$' :: c :: cs) (by simp [reserved]) (fun c' hc' => (hr c' hc' trivial).2)] at this
      exact this

theorem toks_op (o : Op) {rest : Str} (hr : ∀ c, rest.head? = some c → OpFollow o c) :
    toks (o.text ++ rest) = (toks rest).map (o.token :: ·) := by
    cases o with
    | semi => exact toks_of_tok (s := ';' :: rest) (k := []) (raw := [';']) (n := 1) rfl
    | bang => exact toks_of_tok (s := '!' :: rest) (k := []) (raw := ['!']) (n := 1) rfl
    | eq => exact scanT_eq rest
    | or => exact toks_of_tok (s := '|' :: '|' :: rest) (k := []) (raw := ['|', '|']) (n := 1) rfl
    | and => exact toks_of_tok (s := '&' :: '&' :: rest) (k := []) (raw := ['&', '&']) (n := 1) rfl
    | dgreat => exact toks_of_tok (s := '>' :: '>' :: rest) (k := []) (raw := ['>', '>']) (n := 1) rfl
    | pipe =>
      exact toks_pair (c := '|') (cs := rest) (alts := [('|', .or)]) rfl fun d hd => lookup_ne (by
        have : d ≠ '|' := hr d hd
        simpa using this)
    | amp =>
      exact toks_pair (c := '&') (cs := rest) (alts := [('&', .and)]) rfl fun d hd => lookup_ne (by
        have : d ≠ '&' := hr d hd
        simpa using this)
    | less =>
      exact toks_pair (c := '<') (cs := rest) (alts := [('<', .dless), ('&', .lessAnd)]) rfl fun d hd => lookup_ne (by
        have := hr d hd
        unfold OpFollow at this
        simpa using this)
    | great =>
      exact toks_pair (c := '>') (cs := rest) (alts := [('>', .dgreat), ('&', .greatAnd)]) rfl fun d hd => lookup_ne (by
        have := hr d hd
        unfold OpFollow at this
        simpa using this)

theorem toks_sym {x : Sym} (h : x.Ok) {rest : Str} (hr : ∀ c, rest.head? = some c → CanFollow x c) :
    toks (x.text ++ rest) = (toks rest).map (x.tokens ++ ·) := by
  cases x with
  | word t => exact toks_typed h hr
  | op o => exact toks_op o hr
  | num n o =>
    obtain ⟨h1, h2, h3⟩ := h
    have ho := toks_op o hr
    obtain ⟨c, cs, hc, hcs⟩ : ∃ c cs, (c = '<' ∨ c = '>') ∧ o.text = c :: cs := by
      rcases h3 with rfl | rfl | rfl
      · exact ⟨_, _, .inl rfl, rfl⟩
      · exact ⟨_, _, .inr rfl, rfl⟩
      · exact ⟨_, _, .inr rfl, rfl⟩
    show toks ((intStr n ++ o.text) ++ rest) = _
    rw [hcs, List.cons_append] at ho
    rw [hcs, List.append_assoc, List.cons_append, toks_number ⟨h1, h2⟩ hc, ho]
    simp [Sym.tokens, Function.comp_def]

theorem opFollow_blank (o : Op) {c : Char} (h : Blank c) : OpFollow o c := by
  cases o with
  | pipe => exact blank_ne h (by decide)
  | amp => exact blank_ne h (by decide)
  | less => exact ⟨blank_ne h (by decide), blank_ne h (by decide)⟩
  | great => exact ⟨blank_ne h (by decide), blank_ne h (by decide)⟩
  | _ => trivial

theorem canFollow_blank (x : Sym) {c : Char} (h : Blank c) : CanFollow x c := by
  cases x with
  | word t =>
    refine fun _ => ⟨isWs_not_wordContinue h.1, ?_⟩
    rintro (rfl | rfl)
    · exact absurd h (by decide)
    · exact absurd h (by decide)
  | op o => exact opFollow_blank o h
  | num n o => exact opFollow_blank o h

theorem intStr_head (n : Int) : ∃ c cs, intStr n = c :: cs ∧ c ∈ (cs!"-0123456789") := by
  cases h : intStr n with
  | nil => exact absurd h (intStr_ne n)
  | cons c cs =>
    refine ⟨c, cs, rfl, ?_⟩
    rcases intStr_chars (n := n) (c := c) (by rw [h]; exact List.mem_cons_self) with rfl | hd
    · decide
    · have := isDigit10_mem hd
      simp only [List.mem_cons, List.not_mem_nil, or_false] at this ⊢
      rcases this with rfl | this
      · exact absurd hd (by decide)
      · exact this

theorem sym_head {x : Sym} (h : x.Ok) : ∃ c cs, x.text = c :: cs := by
  cases x with
  | word t => obtain ⟨c, cs, e, -⟩ := typed_head h; exact ⟨c, cs, e⟩
  | op o => cases o <;> exact ⟨_, _, rfl⟩
  | num n o =>
    obtain ⟨c, cs, e, -⟩ := intStr_head n
    exact ⟨c, cs ++ o.text, by show intStr n ++ o.text = _; rw [e]; rfl⟩

/-- What neither a word nor a number begins with may follow an operator. -/
theorem opFollow_head (o : Op) {c : Char} (h : c ∉ ['>', '<', '&', '|', '=']) : OpFollow o c := by
  simp only [List.mem_cons, List.not_mem_nil, or_false, not_or] at h
  obtain ⟨h1, h2, h3, h4, -⟩ := h
  cases o with
  | pipe => exact h4
  | amp => exact h3
  | less => exact ⟨h2, h3⟩
  | great => exact ⟨h1, h3⟩
  | _ => trivial

theorem opFollow_op {o q : Op} (h : ¬ OpFuse o q) {c : Char} (hc : q.text.head? = some c) : OpFollow o c := by
  cases o <;> cases q <;> first
    | trivial
    | (simp only [Op.text, List.head?_cons, Option.some.injEq] at hc; subst hc; first
        | (unfold OpFollow; decide)
        | (exact absurd (by simp [OpFuse]) h))

theorem canFollow_sym {x y : Sym} (hy : y.Ok) (h : ¬ Fuse x y) : ∀ c, y.text.head? = some c → CanFollow x c := by
  intro c hc
  have hop : ∀ o : Op, (∀ q, y = .op q → ¬ OpFuse o q) → OpFollow o c := by
    intro o hq
    cases y with
    | word t =>
      obtain ⟨d, ds, e, hd⟩ := typed_head hy
      have hc : t.text.head? = some c := hc
      rw [e] at hc
      obtain rfl : d = c := by simpa using hc
      exact opFollow_head o hd
    | num n q =>
      obtain ⟨d, ds, e, hd⟩ := intStr_head n
      have hc : (intStr n ++ q.text).head? = some c := hc
      rw [e] at hc
      obtain rfl : d = c := by simpa using hc
      refine opFollow_head o fun hm => ?_
      simp only [List.mem_cons, List.not_mem_nil, or_false] at hm
      rcases hm with rfl | rfl | rfl | rfl | rfl <;> exact absurd hd (by decide)
    | op q => exact opFollow_op (hq q rfl) hc
  cases x with
  | word u =>
    cases y with
    | word t =>
      intro ho
      cases t with
      | plain _ => exact absurd ⟨ho, trivial⟩ h
      | single _ => exact absurd ⟨ho, trivial⟩ h
      | double _ => exact absurd ⟨ho, trivial⟩ h
      | mixed _ => exact absurd ⟨ho, trivial⟩ h
      | _ =>
        simp only [Sym.text, Typed.text, List.head?_cons, Option.some.injEq] at hc
        subst hc
        exact ⟨by decide, fun e => absurd e (by decide)⟩
    | num n q => exact fun ho => absurd ho h
    | op q =>
      cases q <;> (simp only [Sym.text, Op.text, List.head?_cons, Option.some.injEq] at hc; subst hc) <;>
        refine fun _ => ⟨by decide, ?_⟩ <;> first
          | (intro e; exact absurd e (by decide))
          | (intro _; exact h)
  | op o => exact hop o fun q e => by subst e; exact h
  | num n o => exact hop o fun q e => by subst e; exact h

/-- How a line ends. -/
structure Ends (e : Str) (ts : List Token) : Prop where
  toks : toks e = some ts
  head : ∀ c, e.head? = some c → Blank c ∨ c = '\n'

theorem canFollow_end (x : Sym) {c : Char} (h : Blank c ∨ c = '\n') : CanFollow x c := by
  rcases h with h | rfl
  · exact canFollow_blank x h
  · cases x with
    | word t => exact fun _ => ⟨by decide, fun e => absurd e (by decide)⟩
    | op o => exact opFollow_head o (by decide)
    | num n o => exact opFollow_head o (by decide)

theorem LineEnd.ends {e : Str} (h : LineEnd e) : ∃ ts, (ts = [.eof] ∨ ts = [.newlineList, .eof]) ∧ Ends e ts := by
  have hn : toks ['\n'] = some [.newlineList, .eof] := by decide
  have hh : ∀ {b r : Str}, (∀ c ∈ b, Blank c) → (b = [] → ∀ c, r.head? = some c → c = '\n') →
      ∀ c, (b ++ r).head? = some c → Blank c ∨ c = '\n' := by
    intro b r hb hr c hc
    cases b with
    | nil => exact .inr (hr rfl c hc)
    | cons d ds => simp at hc; subst hc; exact .inl (hb _ List.mem_cons_self)
  cases h with
  | blanks hb =>
    refine ⟨_, .inl rfl, ?_, ?_⟩
    · have := toks_blanks e [] hb
      rw [List.append_nil, toks_nil] at this
      exact this
    · have := hh (r := []) hb (by simp)
      rwa [List.append_nil] at this
  | newline hb =>
    exact ⟨_, .inr rfl, by rw [toks_blanks _ _ hb, hn], hh hb (by simp)⟩
  | comment hne hb ht =>
    refine ⟨_, .inl rfl, ?_, hh hb (fun e => absurd e hne)⟩
    have := toks_comment _ [] ht (.inl rfl)
    rw [List.append_nil] at this
    rw [toks_blanks _ _ hb, this, toks_nil]
  | commentNewline hne hb ht =>
    refine ⟨_, .inr rfl, ?_, hh hb (fun e => absurd e hne)⟩
    rw [toks_blanks _ _ hb, toks_comment _ _ ht (.inr rfl), hn]

theorem toks_laidOut {l : List (Str × Sym)} (h : Layout l) {e : Str} {ts : List Token} (he : Ends e ts) :
    toks (laidOut l e) = some (l.flatMap (fun p => p.2.tokens) ++ ts) := by
  induction h with
  | nil => exact he.toks
  | @one b x hb hx =>
    have e1 : laidOut [(b, x)] e = b ++ (x.text ++ e) := by simp [laidOut, line]
    rw [e1, toks_blanks b _ hb, toks_sym hx fun c hc => canFollow_end _ (he.head c hc), he.toks]
    simp
  | @cons b x b' x' l hb hx hf hl ih =>
    have e1 : laidOut ((b, x) :: (b', x') :: l) e = b ++ (x.text ++ laidOut ((b', x') :: l) e) := by
      simp [laidOut, line]
    rw [e1, toks_blanks b _ hb, toks_sym hx ?_, ih]
    · simp
    · intro c hc
      have hb' : (∀ c ∈ b', Blank c) ∧ x'.Ok := by cases hl <;> exact ⟨‹_›, ‹_›⟩
      cases b' with
      | cons d ds =>
        simp [laidOut, line] at hc
        subst hc
        exact canFollow_blank _ (hb'.1 _ List.mem_cons_self)
      | nil =>
        obtain ⟨d, ds, e2⟩ := sym_head hb'.2
        refine canFollow_sym hb'.2 (hf rfl) c ?_
        simp [laidOut, line, e2] at hc
        rw [e2]
        simpa using hc

/-! ## The tokens of a command line -/

theorem part_syms {p : Part} : p.syms.flatMap Sym.tokens = p.tokens := by
  rcases p with t | ⟨x, t⟩ | ⟨_ | n, op, t⟩
  · rfl
  · rfl
  · cases op <;> rfl
  · cases op <;> rfl

theorem flatMap_map_syms {α} (l : List α) (f : α → List Sym) (g : α → List Token)
    (h : ∀ a, (f a).flatMap Sym.tokens = g a) : (l.flatMap f).flatMap Sym.tokens = l.flatMap g := by
  induction l with
  | nil => rfl
  | cons a l ih => simp [h, ih]

theorem TCmd.syms_tokens (c : TCmd) : c.syms.flatMap Sym.tokens = c.pieces.flatMap Prod.snd := by
  unfold TCmd.syms TCmd.pieces
  simp only [List.flatMap_append, List.flatMap_map,
    flatMap_map_syms _ _ Part.tokens (fun _ => part_syms)]
  cases c.name <;> rfl

theorem TPipe.syms_tokens (p : TPipe) : p.syms.flatMap Sym.tokens = p.pieces.flatMap Prod.snd := by
  unfold TPipe.syms TPipe.pieces
  simp only [List.flatMap_append, List.flatMap_assoc, List.flatMap_cons, TCmd.syms_tokens]
  cases p.bang <;> cases p.background <;> rfl

theorem TChain.syms_tokens (c : TChain) : c.syms.flatMap Sym.tokens = c.pieces.flatMap Prod.snd := by
  unfold TChain.syms TChain.pieces
  simp only [List.flatMap_append, List.flatMap_assoc, List.flatMap_cons, TPipe.syms_tokens]
  congr 2
  funext ⟨o, p⟩
  cases o <;> rfl

theorem TLine.syms_tokens (l : TLine) : l.syms.flatMap Sym.tokens = l.pieces.flatMap Prod.snd := by
  unfold TLine.syms TLine.pieces
  simp only [List.flatMap_append, List.flatMap_assoc, List.flatMap_cons, TChain.syms_tokens]
  rfl

theorem parse_laidOut {t : TLine} (hok : t.Ok) {l : List (Str × Sym)} (h : Layout l) (hl : l.map Prod.snd = t.syms)
    {e : Str} (he : LineEnd e) : parse (laidOut l e) = parse t.text := by
  rw [parse_tline hok]
  obtain ⟨ts, hts, he⟩ := LineEnd.ends he
  unfold parse
  have e1 : l.flatMap (fun p => p.2.tokens) = t.pieces.flatMap Prod.snd := by
    rw [← TLine.syms_tokens, ← hl, List.flatMap_map]
  rw [lex_toks, toks_laidOut h he, Option.bind_some, e1]
  refine parseTokens_complete (.ccListSep (TLine.derives hok) ?_)
  rcases hts with rfl | rfl
  · exact .sepEof
  · exact .sepNlEof

/-- A line without a command. -/
theorem parse_blank {e : Str} (he : LineEnd e) : parse e = some none := by
  obtain ⟨ts, hts, he⟩ := LineEnd.ends he
  unfold parse
  rw [lex_toks, he.toks, Option.bind_some]
  rcases hts with rfl | rfl <;> rfl

theorem laidOut_ne {t : TLine} (hok : t.Ok) {l : List (Str × Sym)} (h : Layout l) (hl : l.map Prod.snd = t.syms)
    (trail : Str) : laidOut l trail ≠ [] := by
  cases h with
  | nil =>
    have e := TLine.syms_tokens t
    rw [← hl] at e
    have hp : parse t.text = some (some t.tree) := parse_tline hok
    have hs : t.first.first.first.syms = [] := by
      have : t.syms = [] := hl.symm
      unfold TLine.syms TChain.syms TPipe.syms at this
      simp only [List.append_eq_nil_iff] at this
      exact this.1.1.2.1
    have hc : t.first.first.first.Ok := hok _ (by simp [TLine.cmds, TPipe.cmds])
    unfold TCmd.syms at hs
    simp only [List.append_eq_nil_iff] at hs
    cases hn : t.first.first.first.name with
    | some n => rw [hn] at hs; simp at hs
    | none =>
      obtain ⟨hb, -⟩ := hc.some hn
      cases hbb : t.first.first.first.before with
      | nil => exact absurd hbb hb
      | cons p ps =>
        rw [hbb] at hs
        rcases p with t | ⟨x, t⟩ | ⟨_ | n, op, t⟩ <;> simp [Part.syms] at hs
  | one hb hx =>
    obtain ⟨c, cs, e⟩ := sym_head hx
    simp [laidOut, line, e]
  | cons hb hx _ _ =>
    obtain ⟨c, cs, e⟩ := sym_head hx
    simp [laidOut, line, e]

end Rsh
