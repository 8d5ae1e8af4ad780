import Verif.Props.Builtins
import Verif.Props.Scopes

/-!
# Properties C24, C41, C42: several definitions of aliases in a line, and `unset` at the prompt
-/

namespace Rsh

open Spec

/-! ## C24 -/

/-- `alias n=v …`, with several definitions. -/
def Spec.aliasAll (ds : List (Str × Typed)) : TCmd :=
  { name := some (.plain (cs!"alias")), after := ds.map fun d => .assign d.1 d.2 }

theorem addAliases_all (ds : List (Str × Typed)) :
    (∀ d ∈ ds, AliasOp.Ok (.set d.1 d.2)) → ∀ s : Sh, ∃ al : AMap Str,
      addAliases (ds.map fun d => d.1 ++ '=' :: d.2.text) s = (.ok (), { s with aliases := al }) ∧
      ∀ x, al.get x = aliasAfter s.aliases.get x (ds.reverse.map fun d => .set d.1 d.2) := by
  induction ds with
  | nil => exact fun _ s => ⟨s.aliases, rfl, fun _ => rfl⟩
  | cons d ds ih =>
    intro h s
    obtain ⟨ha, hv, heq, -, -, -⟩ := h d List.mem_cons_self
    obtain ⟨al, e1, e2⟩ := ih (fun d hd => h d (List.mem_cons_of_mem _ hd))
      { s with aliases := s.aliases.insert d.1 (bare d.2) }
    refine ⟨al, ?_, fun x => ?_⟩
    · have hc : hasChar '=' (d.1 ++ '=' :: d.2.text) = true := by simp [hasChar]
      have hs : splitOn '=' (d.1 ++ '=' :: d.2.text) = [d.1, d.2.text] := by
        rw [splitOn_append _ _ _ (fun e => (ha.2.1 _ e).2 (by decide)), splitOn_none _ _ heq]
      rw [List.map_cons]
      unfold addAliases addAlias
      simp only [hc, if_true, hs, run_modS_bind, trimQuotes_bare hv]
      exact e1
    · rw [e2, List.reverse_cons, List.map_append, aliasAfter_append]
      congr 1
      funext y
      show AMap.get (AMap.insert _ _ _) _ = _
      rw [AMap.get_insert, List.map_singleton]
      unfold aliasAfter aliasAfter
      by_cases h : y = d.1
      · rw [if_pos h, if_pos h.symm]
      · rw [if_neg h, if_neg (Ne.symm h)]

theorem arrive_assigns {get : Str → Option Str} (ds : List (Str × Typed)) (h : ∀ d ∈ ds, PlainWord d.1) :
    Arrive get (wordsOf (ds.map fun d => .assign d.1 d.2)) (ds.map fun d => d.1 ++ '=' :: d.2.text) := by
  induction ds with
  | nil => exact .nil
  | cons d ds ih =>
    exact .cons (arrives_plain (h d List.mem_cons_self) _) (ih fun d hd => h d (List.mem_cons_of_mem _ hd))

/-- **C24**: one `alias` command can give several definitions: they have the effect of as many commands with
one definition each, a later definition of a name taking the place of an earlier one. -/
theorem C24_several (w : World) (n : Nat) (d : Str × Typed) (ds : List (Str × Typed))
    (hok : ∀ e ∈ d :: ds, AliasOp.Ok (.set e.1 e.2)) (s : Sh) (h1 : s.aliases.get (cs!"alias") = none) :
    ∃ al : AMap Str, interactiveLine w (n + 1) (aliasAll (d :: ds)).line.text s =
        (.ok (), { s with masked := true, aliases := al }) ∧
      ∀ x, al.get x = aliasAfter s.aliases.get x ((d :: ds).reverse.map fun d => .set d.1 d.2) := by
  obtain ⟨al, e1, e2⟩ := addAliases_all (d :: ds) hok { s with masked := true }
  refine ⟨al, ?_, e2⟩
  rw [builtin_line w n (c := aliasAll (d :: ds)) (name := cs!"alias") (vs := (d :: ds).map fun d => d.1 ++ '=' :: d.2.text)
    ⟨by simp [aliasAll], by simp [aliasAll], by simp [aliasAll, Typed.Ok]; decide, ?_, by simp [aliasAll]⟩
    rfl rfl (by decide) (by decide) h1 (arrive_assigns _ fun e he => (hok e he).1)]
  · apply reportM_ok
    rw [callBuiltin_alias _ _ rfl]
    unfold bAlias
    rw [run_getS_bind]
    have hp' : hasSub (cs!"-p") (d.1 ++ '=' :: d.2.text) = false :=
      (hasSub_false _ _).2 fun x y e => (hok d List.mem_cons_self).2.2.2.1 ⟨x, y, e⟩
    simp only [wordAt, List.map_cons, List.getElem?_cons_zero, unwrapM_some, run_pure_bind, hp', Bool.false_eq_true,
      if_false]
    exact e1
  · intro p hp
    obtain ⟨d', hd, rfl⟩ := List.mem_map.1 (show p ∈ (d :: ds).map fun d => Part.assign d.1 d.2 from hp)
    exact ⟨(hok d' hd).1, (hok d' hd).2.1⟩

/-- Three definitions, two of the same name. -/
example : ∃ al : AMap Str, (interactiveLine (demoWorld []) 19
      (aliasAll [(cs!"a", .plain (cs!"x")), (cs!"b", .single (cs!"y z")), (cs!"a", .plain (cs!"u"))]).line.text
      (atPrompt [])).2.aliases = al ∧ al.get (cs!"a") = some (cs!"u") ∧ al.get (cs!"b") = some (cs!"y z") := by
  obtain ⟨al, e1, e2⟩ := C24_several (demoWorld []) 18 (cs!"a", .plain (cs!"x"))
    [(cs!"b", .single (cs!"y z")), (cs!"a", .plain (cs!"u"))] (by decide +kernel) (atPrompt []) (by decide +kernel)
  refine ⟨al, by rw [e1], ?_, ?_⟩
  · rw [e2]; decide
  · rw [e2]; decide

/-! ## C41 and C42 -/

/-- `unset` with the words `ws`. -/
def Spec.unsetCmd (ws : List Str) : TCmd :=
  { name := some (.plain (cs!"unset")), after := ws.map fun x => .arg (.plain x) }

theorem unset_line (w : World) (n : Nat) {s : Sh} (h1 : s.aliases.get (cs!"unset") = none) {ws : List Str}
    (hws : ∀ x ∈ ws, PlainWord x) :
    ∃ r, interactiveLine w (n + 1) (unsetCmd ws).line.text s =
      reportM (bUnset ⟨none, cs!"unset", some ⟨r, ws⟩⟩) { s with masked := true } := by
  have hA : Arrive (valueOf s) (wordsOf (unsetCmd ws).after) ws := by
    unfold unsetCmd
    simp only
    clear h1
    induction ws with
    | nil => exact .nil
    | cons x ws ih =>
      refine .cons ?_ (ih fun x hx => hws x (List.mem_cons_of_mem _ hx))
      simpa [Typed.text] using arrives_plain (hws x List.mem_cons_self) []
  refine ⟨if ws = [] then [] else redirsOf (unsetCmd ws).after, ?_⟩
  rw [builtin_line w n (c := unsetCmd ws) (name := cs!"unset") (vs := ws)
    ⟨by simp [unsetCmd], by simp [unsetCmd], by simp [unsetCmd, Typed.Ok]; decide, ?_, by simp [unsetCmd]⟩
    rfl rfl (by decide) (by decide) h1 hA, callBuiltin_unset _ _ rfl]
  intro p hp
  obtain ⟨x, hx, rfl⟩ := List.mem_map.1 (show p ∈ ws.map fun x => Part.arg (.plain x) from hp)
  exact hws x hx

/-- What is left when `x` is taken away, innermost binding first: `old` tells what each context had. -/
def Spec.Uncovered (old new : Str → Nat → Option α) (stack : List Nat) (x : Str) : Prop :=
  (∀ i y, y ≠ x → new y i = old y i) ∧
  ((∀ i ∈ stack, old x i = none) ∧ (∀ i, new x i = old x i) ∨
    ∃ pre t post, stack = pre ++ t :: post ∧ (∀ i ∈ pre, old x i = none) ∧ (old x t).isSome = true ∧
      ∀ i, new x i = if i = t then none else old x i)

/-- **C41**: `unset NAME` and `unset -v NAME` take away the innermost variable of that name, and change
nothing else: no other variable, no function, no alias, not the environment. -/
theorem C41_line (w : World) (n : Nat) (s : Sh) (h1 : s.aliases.get (cs!"unset") = none) (x : Str)
    (hx : PlainWord x) (hu : Unqualified x) (ws : List Str) (hws : ws = [x] ∧ '-' ∉ x ∨ ws = [cs!"-v", x]) :
    ∃ m, interactiveLine w (n + 1) (unsetCmd ws).line.text s = (.ok (), { s with masked := true, ctx := m }) ∧
      Uncovered (varIn s.ctx) (varIn m) s.ctx.stack x ∧ (∀ i f, funcIn m f i = funcIn s.ctx f i) ∧
      m.stack = s.ctx.stack ∧ m.exported = s.ctx.exported := by
  refine ⟨s.ctx.removeVar x, ?_, ?_⟩
  · obtain ⟨r, e⟩ := unset_line w n h1 (ws := ws) (by
      rcases hws with ⟨rfl, -⟩ | rfl
      · simpa using hx
      · simp only [List.mem_cons, List.not_mem_nil, or_false, forall_eq_or_imp, forall_eq]
        exact ⟨by decide, hx⟩)
    rw [e]
    apply reportM_ok
    rcases hws with ⟨rfl, hd⟩ | rfl
    · have : hasChar '-' x = false := by
        cases h : hasChar '-' x
        · rfl
        · exact absurd (hasChar_iff.1 h) hd
      unfold bUnset unsetFlags
      simp [SimpleCommand.words, this, wordAt]
    · rfl
  · cases hf : s.ctx.findCtx (fun c => (c.getVar x).isSome) with
    | none =>
      have hn : ∀ i ∈ s.ctx.stack, varIn s.ctx x i = none := fun i hi => by
        have := CtxMgr.findCtx_none hf i hi
        rw [Option.isSome_eq_false_iff, Option.isNone_iff_eq_none] at this
        exact this
      have e : s.ctx.removeVar x = s.ctx := by
        unfold CtxMgr.removeVar
        rw [splitNs_unqualified hu]
        simp only [hf]
      rw [e]
      exact ⟨⟨fun _ _ _ => rfl, .inl ⟨hn, fun _ => rfl⟩⟩, fun _ _ => rfl, rfl, rfl⟩
    | some t =>
      obtain ⟨ht, pre, post, hst, hpre⟩ := CtxMgr.findCtx_some hf
      have hpre' : ∀ i ∈ pre, varIn s.ctx x i = none := fun i hi => by
        have := hpre i hi
        rw [Option.isSome_eq_false_iff, Option.isNone_iff_eq_none] at this
        exact this
      obtain ⟨k1, k2, k3, k4⟩ := removeVar_at hu hf
      refine ⟨⟨fun i y hy => ?_, .inr ⟨pre, t, post, hst, hpre', ht, fun i => ?_⟩⟩, k2, k3, k4⟩
      · rw [k1, if_neg fun e => hy e.2]
      · rw [k1]; simp

/-- **C42**: `unset -f NAME` takes away the innermost function of that name, and changes nothing else: no
other function, no variable, no alias, not the environment. -/
theorem C42_line (w : World) (n : Nat) (s : Sh) (h1 : s.aliases.get (cs!"unset") = none) (f : Str)
    (hx : PlainWord f) (hu : Unqualified f) :
    ∃ m, interactiveLine w (n + 1) (unsetCmd [cs!"-f", f]).line.text s =
        (.ok (), { s with masked := true, ctx := m }) ∧
      Uncovered (funcIn s.ctx) (funcIn m) s.ctx.stack f ∧ (∀ i x, varIn m x i = varIn s.ctx x i) ∧
      m.stack = s.ctx.stack ∧ m.exported = s.ctx.exported := by
  refine ⟨s.ctx.removeFunction f, ?_, ?_⟩
  · obtain ⟨r, e⟩ := unset_line w n h1 (ws := [cs!"-f", f]) (by
      simp only [List.mem_cons, List.not_mem_nil, or_false, forall_eq_or_imp, forall_eq]
      exact ⟨by decide, hx⟩)
    rw [e]
    exact reportM_ok rfl
  · cases hf : s.ctx.findCtx (fun c => (c.getFunction f).isSome) with
    | none =>
      have hn : ∀ i ∈ s.ctx.stack, funcIn s.ctx f i = none := fun i hi => by
        have := CtxMgr.findCtx_none hf i hi
        rw [Option.isSome_eq_false_iff, Option.isNone_iff_eq_none] at this
        exact this
      have e : s.ctx.removeFunction f = s.ctx := by
        unfold CtxMgr.removeFunction
        rw [splitNs_unqualified hu]
        simp only [hf]
      rw [e]
      exact ⟨⟨fun _ _ _ => rfl, .inl ⟨hn, fun _ => rfl⟩⟩, fun _ _ => rfl, rfl, rfl⟩
    | some t =>
      obtain ⟨ht, pre, post, hst, hpre⟩ := CtxMgr.findCtx_some hf
      have hpre' : ∀ i ∈ pre, funcIn s.ctx f i = none := fun i hi => by
        have := hpre i hi
        rw [Option.isSome_eq_false_iff, Option.isNone_iff_eq_none] at this
        exact this
      obtain ⟨k1, k2, k3, k4⟩ := removeFunction_at hu hf
      refine ⟨⟨fun i y hy => ?_, .inr ⟨pre, t, post, hst, hpre', ht, fun i => ?_⟩⟩, k2, k3, k4⟩
      · rw [k1, if_neg fun e => hy e.2]
      · rw [k1]; simp

example : ∃ m, (interactiveLine (demoWorld []) 19 (unsetCmd [cs!"-f", cs!"f"]).line.text
      (atPrompt [cs!"function f() { X=1 }", cs!"f=2"])).2.ctx = m ∧
    Uncovered (funcIn (atPrompt [cs!"function f() { X=1 }", cs!"f=2"]).ctx) (funcIn m)
      (atPrompt [cs!"function f() { X=1 }", cs!"f=2"]).ctx.stack (cs!"f") := by
  obtain ⟨m, e, h, -⟩ := C42_line (demoWorld []) 18 (atPrompt [cs!"function f() { X=1 }", cs!"f=2"])
    (by decide +kernel) (cs!"f") (by decide) (by intro a b e; rcases a with _ | ⟨_, _ | _⟩ <;> simp at e)
  exact ⟨m, by rw [e], h⟩

end Rsh
