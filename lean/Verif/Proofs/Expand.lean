import Verif.Proofs.Line
import Verif.Proofs.Str
import Verif.Proofs.Blanks
import Verif.Proofs.Monad
import Verif.Model.Eval
import Verif.Spec.Words
import Verif.Spec.Demo

/-!
# Word expansion of commands without substitutions
-/

namespace Rsh

open Spec

/-! ## The name -/

theorem splitQtsAux_plain (pre : Str) : ∀ (mid rest : Str),
    (∀ c ∈ rest, isWs c = false ∧ c ≠ '\'' ∧ c ≠ '"') →
    splitQtsAux (pre ++ (mid ++ rest)) rest (blen pre + blen mid) (blen pre) .none =
      some (if mid ++ rest = [] then [] else [mid ++ rest]) := by
  intro mid rest
  induction rest generalizing mid with
  | nil =>
    intro _
    unfold splitQtsAux
    rw [List.append_nil]
    by_cases h : mid = []
    · subst h; simp
    · have : 0 < blen mid := by
        cases mid with
        | nil => exact absurd rfl h
        | cons c cs => have := utf8Size_pos c; simp only [blen]; omega
      rw [if_pos (by rw [blen_append]; omega), sliceFromB, dropB_append, if_neg h]
      rfl
  | cons c cs ih =>
    intro h
    obtain ⟨h1, h2, h3⟩ := h c List.mem_cons_self
    unfold splitQtsAux
    rw [if_neg h2, if_neg h3, if_neg (by rw [h1]; simp)]
    have := ih (mid ++ [c]) fun c' hc => h c' (List.mem_cons_of_mem _ hc)
    simp only [blen_append, List.append_assoc, List.cons_append, List.nil_append, blen,
      Nat.add_zero] at this
    rw [Nat.add_assoc]
    exact this

theorem splitQts_plain {name : Str} (h : PlainWord name) : splitQts name = some [name] := by
  have := splitQtsAux_plain [] [] name fun c hc => by
    obtain ⟨h1, h2⟩ := h.2.1 c hc
    refine ⟨h1, ?_, ?_⟩ <;> rintro rfl <;> exact h2 (by decide)
  simp only [List.nil_append, if_neg h.1] at this
  exact this

theorem plainWord_head {name : Str} (h : PlainWord name) {c : Char} (hc : c ∈ special) :
    name.head? ≠ some c := by
  intro e
  cases name with
  | nil => cases e
  | cons d ds => cases e; exact (h.2.1 c List.mem_cons_self).2 hc

theorem startsWith_single (c : Char) (s : Str) : startsWith [c] s = true ↔ s.head? = some c := by
  cases s with
  | nil => simp [startsWith]
  | cons d ds =>
    simp only [startsWith, List.isPrefixOf, Bool.and_true, beq_iff_eq, List.head?_cons, Option.some.injEq]
    exact eq_comm

theorem expandWord_of_head {m : CtxMgr} {x : Str} (h : x.head? ≠ some '$') : expandWord m x = x := by
  unfold expandWord
  split
  · simp at h
  · rfl

theorem evalNameWords_one (w : World) (rec : List AndOr → M Int) {name : Str}
    (h : name.head? ≠ some '"') (s : Sh) : evalNameWords w rec [name] s = (.ok [name], s) := by
  have h1 : ¬ startsWith ['"'] name = true := fun e => h ((startsWith_single _ _).1 e)
  unfold evalNameWords evalNameWords
  simp only [h1, if_false, Bool.false_eq_true]
  rfl

/-! ## The arguments -/

theorem evalSubshell_dollar (w : World) (rec : List AndOr → M Int) (s : Sh) :
    evalSubshell w rec ['$'] s = (.ok ['$'], s) := rfl

theorem cutLoop_dollars (w : World) (rec : List AndOr → M Int) (t : Str) : ∀ (v : Str) (n : Nat) (s : Sh),
    t.length < n → afterDollars t = some v → '`' ∉ t → (∀ a b, t ≠ a ++ '$' :: '(' :: b) →
    cutLoop w rec n t s = (.ok v, s) := by
  induction t using afterDollars.induct with
  | case1 =>
    intro v n s h hv _ _
    cases n with
    | zero => omega
    | succ n => simp [afterDollars] at hv; subst hv; rfl
  | case2 => intro v n s h hv; simp [afterDollars] at hv
  | case3 c hc =>
    intro v n s h hv h2 h3
    rw [afterDollars, if_neg hc] at hv
    cases hv
    cases n with
    | zero => omega
    | succ n =>
      unfold cutLoop
      rw [if_neg (by simp_all; exact fun e => h2 e.symm)]
      cases n with
      | zero => simp at h
      | succ n => rfl
  | case4 d t ih =>
    intro v n s h hv h2 h3
    rw [afterDollars, if_pos rfl] at hv
    obtain ⟨x, hx, rfl⟩ := Option.map_eq_some_iff.1 hv
    cases n with
    | zero => omega
    | succ n =>
      unfold cutLoop
      rw [if_pos (.inl rfl)]
      have hd : d ≠ '(' := by rintro rfl; exact h3 [] t rfl
      have e1 : createSubshell '$' (d :: t) = some (['$'], t) := by
        unfold createSubshell
        rw [if_pos rfl]
        simp only
        rw [if_neg hd]
      rw [e1, unwrapM_some, run_pure_bind]
      simp only
      rw [run_bind_ok (evalSubshell_dollar w rec s),
        run_bind_ok (ih x n s (by simp at h; omega) hx (fun e => h2 (by simp [e]))
          fun a b e => h3 ('$' :: d :: a) b (by simp [e]))]
      rfl
  | case5 c d t hc ih =>
    intro v n s h hv h2 h3
    rw [afterDollars, if_neg hc] at hv
    obtain ⟨x, hx, rfl⟩ := Option.map_eq_some_iff.1 hv
    cases n with
    | zero => omega
    | succ n =>
      unfold cutLoop
      rw [if_neg (by
        rintro (rfl | rfl)
        · exact hc rfl
        · exact h2 List.mem_cons_self)]
      rw [run_bind_ok (ih x n s (by simp at h ⊢; omega) hx (fun e => h2 (List.mem_cons_of_mem _ e))
        fun a b e => h3 (c :: a) b (by simp [e]))]
      rfl

theorem afterDollars_self {t : Str} (h : '$' ∉ t) : afterDollars t = some t := by
  induction t using afterDollars.induct with
  | case1 => rfl
  | case2 => simp at h
  | case3 c hc => rw [afterDollars, if_neg hc]
  | case4 => simp at h
  | case5 c d t hc ih =>
    rw [afterDollars, if_neg hc, ih fun e => h (List.mem_cons_of_mem _ e)]
    rfl

theorem hasSub_dollar {t : Str} (h : '$' ∉ t) (p : Str) : hasSub ('$' :: p) t = false := by
  rw [hasSub_false]
  rintro a b rfl
  simp at h

theorem expandWord_eq (m : CtxMgr) (t : Str) :
    expandWord m t = expansion (fun n => (m.getVar n).map Var.value) t := by
  unfold expandWord
  split
  · rename_i name
    show _ = ((m.getVar name).map Var.value).getD _
    split <;> simp [*]
  · rename_i h
    unfold expansion
    split
    · exact absurd rfl (h _)
    · rfl

instance (t v : Str) : Decidable (Arrives t v) :=
  decidable_of_iff (if t.head? = some '\'' then v = t.tail.dropLast
    else if t.head? = some '"' then
      afterDollars t.tail.dropLast = some v ∧ '`' ∉ t ∧ hasSub (cs!"$(") t = false
    else v = t) (by
      unfold Arrives
      have := hasSub_false (cs!"$(") t
      split
      · exact Iff.rfl
      · split
        · rw [this]; simp
        · exact Iff.rfl)

instance (get : Str → Option Str) (t : Typed) (v : Str) : Decidable (t.Means get v) :=
  inferInstanceAs (Decidable (Arrives _ _))

/-- The value of one argument. -/
theorem evalSuffixWords_cons (w : World) (rec : List AndOr → M Int) {t v : Str}
    (hm : Arrives t v) (rest : List Str) (s : Sh) :
    evalSuffixWords w rec (t :: rest) s =
      (do let b ← evalSuffixWords w rec rest; pure (v :: b) : M (List Str)) s := by
  rw [evalSuffixWords]
  unfold Arrives at hm
  by_cases h1 : t.head? = some '\''
  · rw [if_pos h1] at hm
    have e1 : startsWith ['"'] t = false := by
      rw [Bool.eq_false_iff]
      exact fun e => by rw [(startsWith_single _ _).1 e] at h1; cases h1
    have e2 : startsWith ['\''] t = true := (startsWith_single _ _).2 h1
    simp only [e1, e2, Bool.false_eq_true, if_false, if_true]
    have e3 : cutQuotes w rec t = pure v := by
      unfold cutQuotes
      rw [if_neg (by rw [h1]; decide), hm]
    rw [e3]
    rfl
  rw [if_neg h1] at hm
  by_cases h2 : t.head? = some '"'
  · rw [if_pos h2] at hm
    obtain ⟨ha, hb, hc⟩ := hm
    have e1 : startsWith ['"'] t = true := (startsWith_single _ _).2 h2
    simp only [e1, if_true]
    have e2 : hasSub (cs!"$(") t = false := (hasSub_false _ _).2 (by simpa using hc)
    have e3 : hasSub ['`'] t = false := by
      rw [Bool.eq_false_iff]; exact fun e => hb ((hasSub_single _ _).1 e)
    unfold evalDoubleQuotes
    simp only [e2, e3, Bool.not_false, Bool.and_self, if_true]
    have e4 : cutQuotes w rec t s = (.ok v, s) := by
      have e5 : cutQuotes w rec t = cutLoop w rec (t.tail.dropLast.length + 1) t.tail.dropLast := by
        unfold cutQuotes
        rw [if_pos h2]
      rw [e5]
      refine cutLoop_dollars w rec _ v _ s (by omega) ha (fun e => hb ?_) fun a b e => ?_
      · exact List.mem_of_mem_tail (List.dropLast_subset _ e)
      · cases t with
        | nil => simp at h2
        | cons x t =>
          simp only [List.tail_cons] at e
          rcases List.eq_nil_or_concat t with rfl | ⟨t, y, rfl⟩
          · simp at e
          · simp only [List.concat_eq_append, List.dropLast_concat] at e
            exact hc (x :: a) (b ++ [y]) (by simp [e])
    show (((cutQuotes w rec _ >>= fun nw => pure [nw]) >>= _) : M (List Str)) s = _
    rw [bind_assoc, run_bind_ok e4]
    rfl
  · rw [if_neg h2] at hm
    have e1 : startsWith ['"'] t = false := by
      rw [Bool.eq_false_iff]; exact fun e => h2 ((startsWith_single _ _).1 e)
    have e2 : startsWith ['\''] t = false := by
      rw [Bool.eq_false_iff]; exact fun e => h1 ((startsWith_single _ _).1 e)
    simp only [e1, e2, Bool.false_eq_true, if_false]
    rw [hm]
    rfl

/-- The values of the arguments. -/
theorem evalSuffixWords_means (w : World) (rec : List AndOr → M Int) {m : CtxMgr}
    (args : List (Typed × Str)) (h : ∀ a ∈ args, a.1.Means (fun n => (m.getVar n).map Var.value) a.2)
    (s : Sh) :
    evalSuffixWords w rec (args.map fun a => expandWord m a.1.text) s = (.ok (args.map Prod.snd), s) := by
  induction args with
  | nil => rfl
  | cons a as ih =>
    have h2 := h a List.mem_cons_self
    unfold Typed.Means at h2
    rw [← expandWord_eq] at h2
    rw [List.map_cons, evalSuffixWords_cons w rec h2,
      run_bind_ok (ih fun a ha => h a (List.mem_cons_of_mem _ ha))]
    rfl

/-! ## A whole command -/

theorem aliasLookup_none {c : SimpleCommand} {s : Sh} (h : s.aliases.get c.name = none) :
    aliasLookup c s = (.ok c, s) := by
  unfold aliasLookup lookupAlias
  rw [run_getS_bind, h]
  rfl

theorem aliasLookup_some {c : SimpleCommand} {s : Sh} {v name : Str} {args : List Str}
    (h : s.aliases.get c.name = some v) (hv : WordsOf v (name :: args)) :
    aliasLookup c s = (.ok (applyAlias c name args), s) := by
  unfold aliasLookup lookupAlias
  rw [run_getS_bind, h]
  simp only [splitWs_iff.2 hv]
  rfl

theorem mapM_expandAssign {m : CtxMgr} {as : List Str} (h : ∀ a ∈ as, '$' ∉ a) :
    as.mapM (expandAssign m) = some as := by
  induction as with
  | nil => rfl
  | cons a as ih =>
    have : expandAssign m a = some a := by
      unfold expandAssign
      rw [if_neg (by rw [hasSub_single]; exact h a List.mem_cons_self)]
    rw [List.mapM_cons, this, ih fun a ha => h a (List.mem_cons_of_mem _ ha)]
    rfl

theorem expandVars_run {c : SimpleCommand} (hpre : ∀ p, c.pre = some p → ∀ a ∈ p.assignment, '$' ∉ a)
    (hname : c.name.head? ≠ some '$') (s : Sh) :
    expandVars c s = (.ok { c with
      suffix := c.suffix.map fun sf => { sf with word := sf.word.map (expandWord s.ctx) } }, s) := by
  unfold expandVars expandVarsIn
  rw [run_getS_bind, expandWord_of_head hname]
  obtain ⟨pre, name, suffix⟩ := c
  cases pre with
  | none => rfl
  | some p =>
    simp only [mapM_expandAssign (hpre p rfl)]
    rfl

/-- The words of a command without substitutions; the redirections after the name are kept only when
there are arguments. -/
theorem expandCommand_means (w : World) (rec : List AndOr → M Int) {c : SimpleCommand}
    {name : Str} (hname : PlainWord name) (args : List (Typed × Str)) {s : Sh}
    {sf : Option Suffix} (hal : aliasLookup c s = (.ok ⟨c.pre, name, sf⟩, s))
    (hw : (sf.map Suffix.word).getD [] = args.map fun a => a.1.text)
    (hpre : ∀ p, c.pre = some p → ∀ a ∈ p.assignment, '$' ∉ a)
    (hargs : ∀ a ∈ args, a.1.Means (valueOf s) a.2) :
    expandCommand w rec c s =
      (.ok ⟨c.pre, name, some ⟨if args = [] then [] else (sf.map Suffix.ioRedirect).getD [], args.map Prod.snd⟩⟩, s) := by
  unfold expandCommand
  rw [run_bind_ok hal, run_bind_ok (expandVars_run (c := ⟨c.pre, name, sf⟩) hpre (plainWord_head hname (by decide)) s)]
  unfold evalWords
  rw [if_neg hname.1]
  have e1 : ¬ startsWith ['\''] name = true := fun e =>
    plainWord_head hname (c := '\'') (by decide) ((startsWith_single _ _).1 e)
  simp only [e1, Bool.false_eq_true, if_false]
  rw [run_pure_bind, splitQts_plain hname, unwrapM_some, run_pure_bind,
    run_bind_ok (evalNameWords_one w rec (plainWord_head hname (by decide)) s)]
  cases sf with
  | none =>
    obtain rfl : args = [] := by
      cases args with
      | nil => rfl
      | cons a as => simp at hw
    rfl
  | some sf =>
    obtain ⟨redirs, words⟩ := sf
    obtain rfl : words = args.map fun a => a.1.text := hw
    simp only [Option.map_some, List.map_map]
    cases args with
    | nil => rfl
    | cons a as =>
      rw [if_neg (by simp)]
      have := evalSuffixWords_means w rec (m := s.ctx) (a :: as) hargs s
      rw [show (a :: as).map (expandWord s.ctx ∘ fun a => a.1.text) =
        (a :: as).map fun a => expandWord s.ctx a.1.text from rfl, run_bind_ok this]
      rfl

end Rsh
