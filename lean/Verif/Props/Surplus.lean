import Verif.Props.ExportWords

/-!
# Property C153: surplus arguments of builtins
-/

namespace Rsh

open Spec

/-- How many of these words a builtin looks at: none for `jobs` and `pwd`; one, and the options before it, for those that act on one
thing; for the others all. -/
def Spec.lookedAt (name : Str) (vs : List Str) : Nat :=
  if name ∈ [cs!"jobs", cs!"pwd"] then 0
  else if name ∈ [cs!"cd", cs!"exit", cs!"return", cs!"fg", cs!"bg", cs!"eval"] then 1
  else if name = cs!"unset" then (if (vs.take 1).any ('-' ∈ ·) then 2 else 1)
  else if name = cs!"readonly" then
    (if (vs.take 1).any ('-' ∈ ·) then (if ((vs.drop 1).take 1).any ('-' ∈ ·) then 3 else 2) else 1)
  else vs.length

theorem readonly_noOption {x : Str} (hx : '-' ∉ x) (c c' : SimpleCommand) (xs ys : List Str) (h : c.words = x :: xs)
    (h' : c'.words = x :: ys) : bReadonly c = bReadonly c' := by
  have e : readonlyFlags x = pure (.variable, 0, false) := by
    unfold readonlyFlags
    rw [if_neg (by simpa [hasChar] using hx)]
  have e2 : readonlyFlags2 x 0 false = pure (0, false) := by
    unfold readonlyFlags2
    rw [if_neg (by simpa [hasChar] using hx)]
  unfold bReadonly
  rw [h, h']
  funext s
  simp only [e, run_pure_bind, wordAt, List.getElem?_cons_zero, unwrapM_some, e2, Bool.false_eq_true, if_false]

theorem readonly_option {x : Str} (hx : '-' ∈ x) (c c' : SimpleCommand) (xs ys : List Str) (h : c.words = x :: xs)
    (h' : c'.words = x :: ys) (h0 : xs[0]? = ys[0]?) (h1 : ∀ y, xs[0]? = some y → '-' ∈ y → xs[1]? = ys[1]?) :
    bReadonly c = bReadonly c' := by
  have e : (∃ msg, readonlyFlags x = throwE msg) ∨ ∃ fl pr, readonlyFlags x = pure (fl, 1, pr) := by
    unfold readonlyFlags
    rw [if_pos (by simpa [hasChar] using hx)]
    split
    · exact .inr ⟨_, _, rfl⟩
    split
    · exact .inr ⟨_, _, rfl⟩
    split
    · exact .inr ⟨_, _, rfl⟩
    split
    · exact .inr ⟨_, _, rfl⟩
    · exact .inl ⟨_, rfl⟩
  unfold bReadonly
  rw [h, h']
  funext s
  rcases e with ⟨msg, e⟩ | ⟨fl, pr, e⟩
  · simp only [e]
    rfl
  have hp : ∀ pos, readonlyPrint fl (x :: xs) pos = readonlyPrint fl (x :: ys) pos ∨ (x :: xs)[pos]? ≠ (x :: ys)[pos]? := by
    intro pos
    by_cases hq : (x :: xs)[pos]? = (x :: ys)[pos]?
    · refine .inl ?_
      unfold readonlyPrint
      rw [hq]
    · exact .inr hq
  simp only [e, run_pure_bind, wordAt, List.getElem?_cons_succ, ← h0]
  cases hy : xs[0]? with
  | none => rfl
  | some y =>
    simp only [unwrapM_some, run_pure_bind]
    have e2 : (∃ msg, readonlyFlags2 y 1 pr = throwE msg) ∨ ('-' ∈ y ∧ readonlyFlags2 y 1 pr = pure (2, true)) ∨
        readonlyFlags2 y 1 pr = pure (1, pr) := by
      unfold readonlyFlags2
      by_cases hh : '-' ∈ y
      · rw [if_pos (by simpa [hasChar] using hh)]
        split
        · exact .inr (.inl ⟨hh, rfl⟩)
        · exact .inl ⟨_, rfl⟩
      · rw [if_neg (by simpa [hasChar] using hh)]
        exact .inr (.inr rfl)
    rcases e2 with ⟨msg, e2⟩ | ⟨hh, e2⟩ | e2
    · simp only [e2]
      rfl
    · simp only [e2, run_pure_bind, if_true]
      rcases hp 2 with hq | hq
      · rw [hq]
      · exact absurd (h1 y hy hh) hq
    · simp only [e2, run_pure_bind, List.getElem?_cons_succ, ← h0]
      rcases hp 1 with hq | hq
      · rw [hq]
      · exact absurd h0 hq

theorem readonly_words (vs : List Str) (c c' : SimpleCommand) (h : c.words = vs)
    (h' : c'.words = vs.take (lookedAt (cs!"readonly") vs)) : bReadonly c = bReadonly c' := by
  have hl : lookedAt (cs!"readonly") vs =
      (if (vs.take 1).any ('-' ∈ ·) then (if ((vs.drop 1).take 1).any ('-' ∈ ·) then 3 else 2) else 1) := by
    unfold lookedAt
    rw [if_neg (by decide), if_neg (by decide), if_neg (by decide), if_pos rfl]
  rw [hl] at h'
  cases vs with
  | nil =>
    unfold bReadonly
    rw [h, h']
    rfl
  | cons x xs =>
    by_cases hx : '-' ∈ x
    · cases xs with
      | nil => exact readonly_option hx c c' [] [] h (by simpa [hx] using h') rfl (by simp)
      | cons y ys =>
        by_cases hy : '-' ∈ y
        · refine readonly_option hx c c' (y :: ys) (y :: ys.take 1) h (by simpa [hx, hy] using h') rfl fun _ _ _ => ?_
          cases ys <;> rfl
        · refine readonly_option hx c c' (y :: ys) [y] h (by simpa [hx, hy] using h') rfl fun z hz hh => ?_
          cases hz
          exact absurd hh hy
    · exact readonly_noOption hx c c' xs [] h (by simpa [hx] using h')

theorem unset_words (vs : List Str) (c c' : SimpleCommand) (h : c.words = vs)
    (h' : c'.words = vs.take (lookedAt (cs!"unset") vs)) : bUnset c = bUnset c' := by
  have hl : lookedAt (cs!"unset") vs = (if (vs.take 1).any ('-' ∈ ·) then 2 else 1) := by
    unfold lookedAt
    rw [if_neg (by decide), if_neg (by decide), if_pos rfl]
  rw [hl] at h'
  unfold bUnset
  rw [h, h']
  match vs with
  | [] => rfl
  | [x] =>
    by_cases hx : '-' ∈ x <;> simp [hx]
  | x :: y :: r =>
    by_cases hx : '-' ∈ x
    · simp only [List.take_succ_cons, List.take_zero, List.any_cons, List.any_nil, Bool.or_false, hx, decide_true, if_true]
      unfold unsetFlags
      rw [if_pos (by simpa [hasChar] using hx)]
      split
      · rfl
      split
      · rfl
      split
      · rfl
      · rfl
    · simp only [List.take_succ_cons, List.take_zero, List.any_cons, List.any_nil, Bool.or_false, hx, decide_false,
        Bool.false_eq_true, if_false]
      unfold unsetFlags
      rw [if_neg (by simpa [hasChar] using hx)]
      rfl

/-- A builtin does not look at the others. -/
theorem callBuiltin_take (w : World) (rec : List AndOr → M Int) {name : Str} (hb : name ∈ builtins) (hne : name ≠ [])
    (p : Option Prefix) (rs : List IoRedirect) (vs : List Str) :
    callBuiltin w rec ⟨p, name, some ⟨rs, vs⟩⟩ = callBuiltin w rec ⟨p, name, some ⟨rs, vs.take (lookedAt name vs)⟩⟩ := by
  simp only [builtins, List.mem_cons, List.not_mem_nil, or_false] at hb
  have hone : ∀ (l : List Str), (l.take 1)[0]? = l[0]? := fun l => by cases l <;> rfl
  rcases hb with rfl | rfl | rfl | rfl | rfl | rfl | rfl | rfl | rfl | rfl | rfl | rfl | rfl | rfl | rfl | rfl | rfl
  · rw [callBuiltin_cd _ _ rfl, callBuiltin_cd _ _ rfl]
    cases vs <;> rfl
  · rw [callBuiltin_exit _ _ rfl, callBuiltin_exit _ _ rfl]
    cases vs <;> rfl
  · rw [callBuiltin_return _ _ rfl, callBuiltin_return _ _ rfl]
    cases vs <;> rfl
  · rw [callBuiltin_jobs _ _ rfl, callBuiltin_jobs _ _ rfl]
  · rw [callBuiltin_fg _ _ rfl, callBuiltin_fg _ _ rfl]
    cases vs <;> rfl
  · rw [callBuiltin_bg _ _ rfl, callBuiltin_bg _ _ rfl]
    cases vs <;> rfl
  · rw [show lookedAt (cs!"alias") vs = vs.length from rfl, List.take_length]
  · rw [show lookedAt (cs!"unalias") vs = vs.length from rfl, List.take_length]
  · rw [show lookedAt (cs!"export") vs = vs.length from rfl, List.take_length]
  · rw [callBuiltin_eval _ _ rfl, callBuiltin_eval _ _ rfl]
    cases vs <;> rfl
  · rw [callBuiltin_unset _ _ rfl, callBuiltin_unset _ _ rfl]
    exact unset_words vs _ _ rfl rfl
  · rw [callBuiltin_pwd _ _ rfl, callBuiltin_pwd _ _ rfl]
  · rw [callBuiltin_readonly _ _ rfl, callBuiltin_readonly _ _ rfl]
    exact readonly_words vs _ _ rfl rfl
  · rw [show lookedAt (cs!"exec") vs = vs.length from rfl, List.take_length]
  · rw [show lookedAt (cs!".") vs = vs.length from rfl, List.take_length]
  · rw [show lookedAt (cs!"source") vs = vs.length from rfl, List.take_length]
  · exact absurd rfl hne

/-- C153 fails: a builtin ignores, without a message, all words but the first ones, as many as `lookedAt` says. -/
theorem C153_ignored (w : World) (n : Nat) (s : Sh) (c : Call) (hc : c.Ok s) :
    interactiveLine w (n + 1) c.text s =
      interactiveLine w (n + 1) (⟨c.name, c.args.take (lookedAt c.name c.values)⟩ : Call).text s := by
  have hc' : (⟨c.name, c.args.take (lookedAt c.name c.values)⟩ : Call).Ok s :=
    ⟨hc.builtin, hc.named, hc.alias, fun a ha => hc.typed a (List.mem_of_mem_take ha),
      fun a ha => hc.means a (List.mem_of_mem_take ha)⟩
  rw [Call.line w n hc, Call.line w n hc']
  unfold Call.simple
  rw [callBuiltin_take w _ hc.builtin hc.named]
  unfold Call.values
  rw [List.map_take]

/-- C153 fails. -/
theorem C153_counterexample :
    valueOf (demo [cs!"A=1", cs!"B=2", cs!"unset A B"]) (cs!"A") = none ∧
    valueOf (demo [cs!"A=1", cs!"B=2", cs!"unset A B"]) (cs!"B") = some (cs!"2") ∧
    (demo [cs!"A=1", cs!"B=2", cs!"unset A B"]).trace.length = (demo [cs!"A=1", cs!"B=2", cs!"unset A"]).trace.length := by
  decide +kernel

example : lookedAt (cs!"unset") [cs!"-f", cs!"f", cs!"g"] = 2 ∧ lookedAt (cs!"readonly") [cs!"A", cs!"B"] = 1 ∧
    lookedAt (cs!"exec") [cs!"ls", cs!"-l", cs!"x"] = 3 := by decide +kernel

example : Call.Ok ⟨cs!"unset", [word (cs!"A"), word (cs!"B")]⟩ (demoShell []) :=
  ⟨by decide, by decide, by decide +kernel, by decide +kernel, by decide +kernel⟩

/-- An argument of `alias` that stands for the same text whatever the variables are, and does not ask for the list. -/
structure Spec.AliasArg (a : Part × Str) : Prop where
  typed : a.1.Ok
  word : wordsOf [a.1] = [a.1.text]
  fixed : ∀ get, Arrives (expansion get a.1.text) a.2
  list : ¬ Occurs (cs!"-p") a.2

/-- `alias` with these arguments as it is typed. -/
def Spec.aliasText (as : List (Part × Str)) : Str :=
  ({ name := some (.plain (cs!"alias")), after := as.map Prod.fst } : TCmd).line.text

theorem aliasText_line (w : World) (n : Nat) {s : Sh} {as : List (Part × Str)} (hne : as ≠ [])
    (hal : s.aliases.get (cs!"alias") = none) (h : ∀ a ∈ as, AliasArg a) :
    interactiveLine w (n + 1) (aliasText as) s = reportM (addAliases (as.map Prod.snd)) { s with masked := true } := by
  have key : Arrive (valueOf s) (wordsOf (as.map Prod.fst)) (as.map Prod.snd) ∧ redirsOf (as.map Prod.fst) = [] := by
    clear hne
    induction as with
    | nil => exact ⟨.nil, rfl⟩
    | cons a as ih =>
      obtain ⟨h1, h2⟩ := ih fun b hb => h b (List.mem_cons_of_mem _ hb)
      have ha := h a List.mem_cons_self
      obtain ⟨p, v⟩ := a
      cases p with
      | arg t => exact ⟨.cons (ha.fixed _) h1, h2⟩
      | assign x t => exact ⟨.cons (ha.fixed _) h1, h2⟩
      | redir num op t => exact absurd ha.word (by simp [wordsOf])
  rw [aliasText, builtin_line w n (name := cs!"alias") (vs := as.map Prod.snd)
    ⟨by simp, by simp, by simp [Typed.Ok]; decide,
      by
        intro p hp
        obtain ⟨a, ha, rfl⟩ := List.mem_map.1 hp
        exact (h a ha).typed,
      by simp⟩ rfl rfl (by decide) (by decide) hal key.1, callBuiltin_alias _ _ rfl]
  congr 1
  cases as with
  | nil => exact absurd rfl hne
  | cons a as =>
    have ha := h a List.mem_cons_self
    have hp : hasSub (cs!"-p") a.2 = false := (hasSub_false _ _).2 fun x y e => ha.list ⟨x, y, e⟩
    unfold bAlias
    funext s
    rw [run_getS_bind]
    show ((if hasSub (cs!"-p") a.2 then displayAliases s.aliases else addAliases ((a :: as).map Prod.snd)) : M Unit) s = _
    rw [hp, if_neg (by simp)]

theorem addAliases_ok (xs : List Str) (s : Sh) :
    ∃ s', addAliases xs s = (.ok (), s') ∧ s'.masked = s.masked ∧
      ((∀ x ∈ xs, ∀ v, x ≠ cs!"alias=" ++ v) → s'.aliases.get (cs!"alias") = s.aliases.get (cs!"alias")) := by
  induction xs generalizing s with
  | nil => exact ⟨s, rfl, rfl, fun _ => rfl⟩
  | cons x xs ih =>
    have h1 : ∃ s1, (if hasChar '=' x then addAlias x else pure ()) s = (.ok (), s1) ∧ s1.masked = s.masked ∧
        ((∀ v, x ≠ cs!"alias=" ++ v) → s1.aliases.get (cs!"alias") = s.aliases.get (cs!"alias")) := by
      split
      · unfold addAlias
        generalize e : splitOn '=' x = l
        match l, e with
        | [n, v], e =>
          refine ⟨_, rfl, rfl, fun h => ?_⟩
          show (s.aliases.insert n (trimQuotes v)).get _ = _
          rw [AMap.get_insert, if_neg]
          rintro rfl
          have hm : '=' ∈ x := by
            refine Classical.byContradiction fun hm => ?_
            rw [splitOn_none _ _ hm] at e
            cases e
          obtain ⟨k, r, rfl, hk⟩ := List.eq_append_cons_of_mem hm
          rw [splitOn_append _ _ _ hk] at e
          injection e with e _
          subst e
          exact h r rfl
        | [], _ => exact ⟨_, rfl, rfl, fun _ => rfl⟩
        | [_], _ => exact ⟨_, rfl, rfl, fun _ => rfl⟩
        | _ :: _ :: _ :: _, _ => exact ⟨_, rfl, rfl, fun _ => rfl⟩
      · exact ⟨s, rfl, rfl, fun _ => rfl⟩
    obtain ⟨s1, e1, m1, a1⟩ := h1
    obtain ⟨s2, e2, m2, a2⟩ := ih s1
    refine ⟨s2, ?_, m2.trans m1, fun h => (a2 fun y hy => h y (List.mem_cons_of_mem _ hy)).trans (a1 (h x List.mem_cons_self))⟩
    rw [addAliases]
    dsimp only
    rw [← e2, ← run_bind_ok e1 (fun _ => addAliases xs)]
    split <;> rfl

/-- C153, as far as it holds: `alias` with several words does what one `alias` for each of them does. -/
theorem C153_aliases_partial (w : World) (n : Nat) (s : Sh) (as : List (Part × Str)) (hne : as ≠ [])
    (hal : s.aliases.get (cs!"alias") = none) (h : ∀ a ∈ as, AliasArg a) (hself : ∀ a ∈ as, ∀ v, a.2 ≠ cs!"alias=" ++ v) :
    interactiveLine w (n + 1) (aliasText as) s =
      oneByOne (fun a => interactiveLine w (n + 1) (aliasText [a])) as s := by
  obtain ⟨s', e', -, -⟩ := addAliases_ok (as.map Prod.snd) { s with masked := true }
  rw [aliasText_line w n hne hal h, reportM_ok e', ← e']
  clear e' s'
  induction as generalizing s with
  | nil => exact absurd rfl hne
  | cons a as ih =>
    have h1 : ∀ x ∈ [a], AliasArg x := fun x hx => h x (by simp at hx; simp [hx])
    obtain ⟨s1, e1, m1, a1⟩ := addAliases_ok ([a].map Prod.snd) { s with masked := true }
    have hl := aliasText_line w n (by simp) hal h1
    rw [reportM_ok e1] at hl
    show _ = (do interactiveLine w (n + 1) (aliasText [a]); oneByOne _ as : M Unit) s
    rw [run_bind_ok hl]
    have hone : ∀ (m : M Unit) (s : Sh), (do m; pure ()) s = m s := by
      intro m s
      rw [run_bind]
      rcases m s with ⟨o, s'⟩
      cases o <;> rfl
    have e2 : (if hasChar '=' a.2 then addAlias a.2 else pure ()) { s with masked := true } = (.ok (), s1) := by
      rw [← e1]
      refine (hone (if hasChar '=' a.2 then addAlias a.2 else pure ()) _).symm.trans ?_
      show _ = addAliases [a.2] _
      unfold addAliases addAliases
      simp only
      split <;> rfl
    have e3 : addAliases ((a :: as).map Prod.snd) { s with masked := true } = addAliases (as.map Prod.snd) s1 := by
      rw [← run_bind_ok e2 (fun _ => addAliases (as.map Prod.snd)), List.map_cons, addAliases]
      dsimp only
      split <;> rfl
    rw [e3]
    have hs : ({ s1 with masked := true } : Sh) = s1 := by
      cases s1
      simp only at m1
      subst m1
      rfl
    cases as with
    | nil => rfl
    | cons b bs =>
      rw [← ih s1 (by simp) ?_ (fun x hx => h x (List.mem_cons_of_mem _ hx)) (fun x hx => hself x (List.mem_cons_of_mem _ hx)), hs]
      rw [a1]
      · exact hal
      · intro x hx
        simp only [List.map_cons, List.map_nil, List.mem_cons, List.not_mem_nil, or_false] at hx
        subst hx
        exact hself a List.mem_cons_self

example : let a : Part × Str := (.assign (cs!"ll") (.single (cs!"ls -l")), cs!"ll='ls -l'")
    let b : Part × Str := (.assign (cs!"la") (.plain (cs!"x")), cs!"la=x")
    aliasText [a, b] = cs!" alias ll='ls -l' la=x" ∧ AliasArg a ∧ AliasArg b ∧
      (demo [cs!" alias ll='ls -l' la=x"]).aliases = (demo [cs!"alias ll='ls -l'", cs!"alias la=x"]).aliases := by
  have hp : ∀ {x : Str}, hasSub (cs!"-p") x = false → ¬ Occurs (cs!"-p") x := fun h h' => by
    have := (hasSub_iff ..).2 h'
    simp [h] at this
  exact ⟨by decide +kernel, ⟨by decide +kernel, rfl, fun _ => rfl, hp (by decide +kernel)⟩,
    ⟨by decide +kernel, rfl, fun _ => rfl, hp (by decide +kernel)⟩, by decide +kernel⟩

end Rsh
