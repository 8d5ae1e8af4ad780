import Verif.Props.Words
import Verif.Spec.Alias
import Verif.Proofs.Later

/-!
# Properties C24, C39, C40, C59, C68, C75-C81: builtin commands
-/

namespace Rsh

open Spec

/-! ## C24 -/

theorem trimQuotes_bare {t : Typed} (h : t.Ok) : trimQuotes t.text = bare t := by
  cases t with
  | single t => simp [trimQuotes, Typed.text, bare, startsWith, endsWith, List.isSuffixOf]
  | double t => simp [trimQuotes, Typed.text, bare, startsWith, endsWith, List.isSuffixOf]
  | plain t =>
    have h1 := plainWord_head (c := '"') h (by decide)
    have h2 := plainWord_head (c := '\'') h (by decide)
    unfold trimQuotes
    rw [if_neg]
    · rfl
    · simp only [Bool.or_eq_true, Bool.and_eq_true, startsWith_single, Typed.text]
      simp [h1, h2]
  | mixed t =>
    have h1 := mixedWord_head (c := '"') h (by decide)
    have h2 := mixedWord_head (c := '\'') h (by decide)
    unfold trimQuotes
    rw [if_neg]
    · rfl
    · simp only [Bool.or_eq_true, Bool.and_eq_true, startsWith_single, Typed.text]
      simp [h1, h2]
  | var t => simp [trimQuotes, Typed.text, bare, startsWith]
  | subst t => simp [trimQuotes, Typed.text, bare, startsWith]
  | backtick t => simp [trimQuotes, Typed.text, bare, startsWith]

theorem aliasOp_run (w : World) (n : Nat) {o : AliasOp} (ho : o.Ok) {s : Sh}
    (h1 : s.aliases.get (cs!"alias") = none) (h2 : s.aliases.get (cs!"unalias") = none) :
    ∃ al : AMap Str, interactiveLine w (n + 1) o.cmd.line.text s =
        (.ok (), { s with masked := true, aliases := al }) ∧
      ∀ x, al.get x = aliasAfter s.aliases.get x [o] := by
  cases o with
  | set a v =>
    obtain ⟨ha, hv, heq, hp, -, -⟩ := ho
    refine ⟨s.aliases.insert a (bare v), ?_, fun x => ?_⟩
    · rw [builtin_line w n (c := AliasOp.cmd (.set a v)) (name := cs!"alias") (vs := [a ++ '=' :: v.text])
        ⟨by simp [AliasOp.cmd], by simp [AliasOp.cmd], by simp [AliasOp.cmd, Typed.Ok]; decide,
         by simpa [AliasOp.cmd, Part.Ok] using ⟨ha, hv⟩, by simp [AliasOp.cmd]⟩ rfl rfl (by decide) (by decide) h1
        (.cons (arrives_plain ha _) .nil)]
      apply reportM_ok
      rw [callBuiltin_alias _ _ rfl]
      unfold bAlias
      rw [run_getS_bind]
      show (do
        let x ← wordAt [a ++ '=' :: v.text] 0
        if hasSub (cs!"-p") x then displayAliases s.aliases
        else addAliases [a ++ '=' :: v.text] : M Unit) _ = _
      have hp' : hasSub (cs!"-p") (a ++ '=' :: v.text) = false :=
        (hasSub_false _ _).2 fun x y e => hp ⟨x, y, e⟩
      have hc : hasChar '=' (a ++ '=' :: v.text) = true := by simp [hasChar]
      have hs : splitOn '=' (a ++ '=' :: v.text) = [a, v.text] := by
        rw [splitOn_append _ _ _ (fun e => (ha.2.1 _ e).2 (by decide)), splitOn_none _ _ heq]
      unfold wordAt
      simp only [List.getElem?_cons_zero, unwrapM_some, run_pure_bind, hp', Bool.false_eq_true, if_false]
      unfold addAliases addAlias
      simp only [hc, if_true, hs, run_modS_bind, trimQuotes_bare hv]
      rfl
    · rw [AMap.get_insert]
      unfold aliasAfter aliasAfter
      by_cases h : x = a
      · rw [if_pos h, if_pos h.symm]
      · rw [if_neg h, if_neg (Ne.symm h)]
  | unset a =>
    obtain ⟨ha, hp⟩ := ho
    refine ⟨s.aliases.erase a, ?_, fun x => ?_⟩
    · rw [builtin_line w n (c := AliasOp.cmd (.unset a)) (name := cs!"unalias") (vs := [a])
        ⟨by simp [AliasOp.cmd], by simp [AliasOp.cmd], by simp [AliasOp.cmd, Typed.Ok]; decide,
         by simpa [AliasOp.cmd, Part.Ok, Typed.Ok] using ha, by simp [AliasOp.cmd]⟩ rfl rfl (by decide) (by decide) h2
        (.cons (by simpa [Typed.text] using arrives_plain ha []) .nil)]
      apply reportM_ok
      rw [callBuiltin_unalias _ _ rfl]
      have hp' : hasSub (cs!"-a") a = false := (hasSub_false _ _).2 fun x y e => hp ⟨x, y, e⟩
      unfold bUnalias wordAt
      simp [hp']
    · rw [AMap.get_erase]
      unfold aliasAfter aliasAfter
      by_cases h : x = a
      · rw [if_pos h, if_pos h.symm]
      · rw [if_neg h, if_neg (Ne.symm h)]
  | clear =>
    refine ⟨[], ?_, fun x => rfl⟩
    rw [builtin_line w n (c := AliasOp.cmd .clear) (name := cs!"unalias") (vs := [cs!"-a"])
        ⟨by simp [AliasOp.cmd], by simp [AliasOp.cmd], by simp [AliasOp.cmd, Typed.Ok]; decide,
         by simp [AliasOp.cmd, Part.Ok, Typed.Ok]; decide, by simp [AliasOp.cmd]⟩ rfl rfl (by decide) (by decide) h2
        (.cons (by simpa [Typed.text] using arrives_plain (x := cs!"-a") (by decide) []) .nil)]
    apply reportM_ok
    rfl

theorem aliasAfter_append (old : Str → Option Str) (x : Str) (a b : List AliasOp) :
    aliasAfter old x (a ++ b) = aliasAfter (fun x => aliasAfter old x b) x a := by
  induction a with
  | nil => rfl
  | cons o a ih =>
    cases o <;> simp only [List.cons_append, aliasAfter, ih]

/-- C24, as far as it holds: aliases behave as a map, for the names and values that work.  (What is
missing: values with `=` or `-p` and names with `-a`; see below.) -/
theorem C24_aliases_partial (w : World) (n : Nat) (ops : List AliasOp) (hok : ∀ o ∈ ops, o.Ok) (s : Sh)
    (h1 : s.aliases.get (cs!"alias") = none) (h2 : s.aliases.get (cs!"unalias") = none) :
    ∃ s', typeAll w (n + 1) (ops.map fun o => o.cmd.line.text) s = (.ok (), s') ∧
      ∀ x, s'.aliases.get x = aliasAfter s.aliases.get x ops.reverse := by
  induction ops generalizing s with
  | nil => exact ⟨s, rfl, fun x => rfl⟩
  | cons o ops ih =>
    obtain ⟨al, e1, e2⟩ := aliasOp_run w n (hok o List.mem_cons_self) h1 h2
    have keep : ∀ x, s.aliases.get x = none → (∀ v, o ≠ .set x v) → al.get x = none := by
      intro x hx hne
      rw [e2]
      cases o with
      | set a v => 
        unfold aliasAfter aliasAfter
        rw [if_neg (fun e => hne v (by rw [e])), hx]
      | unset a =>
        unfold aliasAfter aliasAfter
        rw [hx]; split <;> rfl
      | clear => rfl
    obtain ⟨s', e3, e4⟩ := ih (fun o ho => hok o (List.mem_cons_of_mem _ ho))
      { s with masked := true, aliases := al }
      (keep _ h1 (fun v e => by
        have := hok o List.mem_cons_self
        rw [e] at this
        exact this.2.2.2.2.1 rfl))
      (keep _ h2 (fun v e => by
        have := hok o List.mem_cons_self
        rw [e] at this
        exact this.2.2.2.2.2 rfl))
    refine ⟨s', ?_, fun x => ?_⟩
    · rw [List.map_cons]
      unfold typeAll
      rw [run_bind_ok e1]
      exact e3
    · rw [e4, List.reverse_cons, aliasAfter_append]
      congr 1
      funext y
      exact e2 y

instance : DecidablePred AliasOp.Ok := fun o => by
  cases o <;> unfold AliasOp.Ok
  · have : Decidable (Occurs (cs!"-p") (‹Str› ++ '=' :: Typed.text ‹Typed›)) :=
      decidable_of_iff _ (hasSub_iff _ _)
    infer_instance
  · have : Decidable (Occurs (cs!"-a") ‹Str›) := decidable_of_iff _ (hasSub_iff _ _)
    infer_instance
  · infer_instance

example : ∀ o ∈ [AliasOp.set (cs!"l") (.single (cs!"ls -l")), .set (cs!"m") (.plain (cs!"more")),
    .unset (cs!"l"), .clear, .set (cs!"l") (.double (cs!"ls $HOME"))], o.Ok := by
  decide +kernel

/-- C24 fails: a value with `=` is refused. -/
theorem C24_equals : (demo [cs!"alias 'l=ls --color=auto'"]).aliases = [] := by decide +kernel

/-- C24 fails: a value with `-p` is not stored. -/
theorem C24_dashP : (demo [cs!"alias l='ls -p'"]).aliases = [] := by decide +kernel

/-- C24 fails: removing an alias whose name contains `-a` removes all. -/
theorem C24_dashA : (demo [cs!"alias l=ls", cs!"alias go-a=go", cs!"unalias go-a"]).aliases = [] := by
  decide +kernel

/-! ## C39 -/

/-- `export x=t` as it is typed. -/
def exportLine (x : Str) (t : Typed) : TCmd :=
  { name := some (.plain (cs!"export"))
    after := [.assign x t] }

theorem notLone_typed {t : Typed} (h : t.Ok) : ¬ LoneQuote t.text := by
  rintro ⟨q, hq, e⟩
  simp only [quotes, List.mem_cons, List.not_mem_nil, or_false] at hq
  cases t with
  | plain t => 
    rw [show Typed.text (.plain t) = t from rfl] at e
    refine plainWord_head (c := q) h ?_ (by rw [e]; rfl)
    rcases hq with rfl | rfl <;> decide
  | mixed t =>
    rw [show Typed.text (.mixed t) = t from rfl] at e
    refine mixedWord_head (c := q) h ?_ (by rw [e]; rfl)
    rcases hq with rfl | rfl <;> decide
  | _ => simp [Typed.text] at e <;> (rcases hq with rfl | rfl <;> simp_all)

theorem addSet_bare {c : Ctx} {x : Str} {t : Typed} (hx : Name x) (ht : t.Ok) (he : '=' ∉ t.text) :
    c.addSet (x ++ '=' :: t.text) = some (c.addVarStruct x { value := bare t }) := by
  unfold Ctx.addSet
  rw [splitSet_eq _ _ hx.2.1, takeWhile_none he]
  simp only [CtxMgr.keyOk_name hx, if_true, trimQuotes_bare ht]

theorem setEnv_run {k v : Str} (h : ¬ (k = [] ∨ hasChar '=' k = true ∨ hasChar '\x00' k = true ∨ hasChar '\x00' v = true))
    (s : Sh) : setEnv k v s = (.ok (), { s with env := s.env.insert k v }) :=
  if_neg h

theorem findSome_only {f : Nat → Option α} {l : List Nat} {a : Nat} {v : α} (ha : a ∈ l) (hv : f a = some v)
    (h : ∀ i ∈ l, i ≠ a → f i = none) : l.findSome? f = some v := by
  induction l with
  | nil => cases ha
  | cons b l ih =>
    rw [List.findSome?_cons]
    by_cases hb : b = a
    · rw [hb, hv]
    · rw [h b List.mem_cons_self hb]
      exact ih ((List.mem_cons.1 ha).resolve_left (Ne.symm hb)) fun i hi => h i (List.mem_cons_of_mem _ hi)

/-- C39, as far as it holds: `export x=t` puts the value into the environment and into the outermost
context, where every context sees it that does not have a variable of that name; nothing else changes.
(What is missing: values with `=` or `-p`; see below.) -/
theorem C39_export_partial (w : World) (n : Nat) (s : Sh) (x : Str) (t : Typed) (hx : PlainWord x) (hn : Name x)
    (ht : t.Ok) (he : '=' ∉ t.text) (hp : ¬ Occurs (cs!"-p") (x ++ '=' :: t.text))
    (h0 : '\x00' ∉ x ∧ '\x00' ∉ t.text) (hal : s.aliases.get (cs!"export") = none) (out : Nat)
    (hout : s.ctx.stack.getLast? = some out) :
    ∃ s', interactiveLine w (n + 1) (exportLine x t).line.text s = (.ok (), s') ∧
      (∀ y, s'.env.get y = if y = x then some (bare t) else s.env.get y) ∧
      (∀ i y, varIn s'.ctx y i = if i = out ∧ y = x then some ⟨bare t, false⟩ else varIn s.ctx y i) ∧
      s'.ctx.stack = s.ctx.stack ∧ s'.aliases = s.aliases ∧ s'.jc = s.jc ∧ s'.trace = s.trace ∧
      ((∀ i ∈ s.ctx.stack, i ≠ out → varIn s.ctx x i = none) → valueOf s' x = some (bare t)) := by
  refine ⟨{ s with
    masked := true
    ctx := s.ctx.setCtx out ((s.ctx.heap out).addVarStruct x { value := bare t })
    env := s.env.insert x (bare t) }, ?_, fun y => AMap.get_insert _ _ _ _, fun i y => ?_, rfl, rfl, rfl, rfl,
    fun hi => ?_⟩
  · rw [builtin_line w n (c := exportLine x t) (name := cs!"export") (vs := [x ++ '=' :: t.text])
        ⟨by simp [exportLine], by simp [exportLine], by simp [exportLine, Typed.Ok]; decide,
         by simpa [exportLine, Part.Ok] using ⟨hx, ht⟩, by simp [exportLine]⟩ rfl rfl (by decide) (by decide) hal
        (.cons (arrives_plain hx _) .nil)]
    apply reportM_ok
    rw [callBuiltin_export _ _ rfl]
    unfold bExport SimpleCommand.words
    have hp' : hasSub (cs!"-p") (x ++ '=' :: t.text) = false := (hasSub_false _ _).2 fun a b e => hp ⟨a, b, e⟩
    have hc : hasChar '=' (x ++ '=' :: t.text) = true := by simp [hasChar]
    have hne : x ++ '=' :: t.text ≠ cs!"context" := fun e => by
      have : '=' ∈ cs!"context" := by rw [← e]; simp
      revert this; decide
    simp only [hp', Bool.false_eq_true, if_false, hne]
    unfold exportAll exportSet addVarAt CtxMgr.addVarPos CtxMgr.atPos
    rw [if_pos hc, splitSet_eq _ _ hn.2.1, takeWhile_none he]
    have hr : s.ctx.stack.reverse[0]? = some out := by
      rw [← hout, List.getLast?_eq_head?_reverse, List.head?_eq_getElem?]
    simp only [bind_assoc, run_getS_bind, hr, Option.bind_some, addSet_bare hn ht he, Option.map_some,
      unwrapM_some, run_pure_bind, trimQuotes_bare ht]
    have h1 : ¬ (x = [] ∨ hasChar '=' x = true ∨ hasChar '\x00' x = true ∨ hasChar '\x00' (bare t) = true) := by
      have hb : '\x00' ∉ bare t := by
        cases t <;> simp [bare, Typed.text] at h0 ⊢ <;> simp_all
      simp [hasChar, hn.1, hn.2.1, h0.1, hb]
    unfold setCtxMgr
    rw [run_modS_bind]
    exact run_bind_ok (setEnv_run h1 _) _
  · exact CtxMgr.varIn_setVar _ _ _ _ _ _
  · unfold valueOf
    rw [CtxMgr.getVar_unqualified _ hn.2.2.1]
    refine (congrArg (Option.map Var.value) (findSome_only (a := out) (v := ⟨bare t, false⟩)
      (List.mem_of_getLast? hout) ?_ ?_)).trans rfl
    · rw [CtxMgr.varIn_setVar, if_pos ⟨rfl, rfl⟩]
    · intro i hm hne
      rw [CtxMgr.varIn_setVar, if_neg (fun e => hne e.1)]
      exact hi i hm hne

/-- C39: every command started at a prompt receives the environment as it is. -/
theorem C39_received (w : World) (hw : Resources w) (n : Nat) (s : Sh) (hp : AtPrompt w s) (c : CmdLine)
    (hok : c.Ok s) (x v : Str) (hv : s.env.get x = some v) (file : Str)
    (hrun : ∀ tr, Runnable w s (tr ++ s.trace) c.name file) :
    ∃ pid img, Happened s (interactiveLine w (n + 1) c.text s).2 [.spawn pid (.exec img) []] ∧
      img.env.get x = some v := by
  obtain ⟨pid, img, h1, -, -, -, h4, -⟩ := cmdLine_program hw n hp hok hrun
  exact ⟨pid, img, h1, by rw [h4]; exact hv⟩

/-- C39: a name that is in the environment once is there at every later prompt. -/
theorem C39_stays (w : World) (s s' : Sh) (h : Later w s s') (x : Str) (hx : (s.env.get x).isSome) :
    (s'.env.get x).isSome :=
  (EnvKept.frame w).later (fun _ _ => EnvKept.same rfl) (fun _ _ => EnvKept.same rfl) h x hx

example : let s := atPrompt [cs!"X=a"]
    s.ctx.stack.getLast? = some 0 ∧ s.aliases.get (cs!"export") = none ∧ PlainWord (cs!"Y") ∧
      (Typed.single (cs!"b c")).Ok ∧ (exportLine (cs!"Y") (.single (cs!"b c"))).line.text = cs!" export Y='b c'" ∧
      (∀ i ∈ s.ctx.stack, i ≠ 0 → varIn s.ctx (cs!"Y") i = none) := by
  decide +kernel

example : (atPrompt [cs!"export X=a", cs!"ls"]).env.get (cs!"X") = some (cs!"a") := by decide +kernel

/-- C39 fails: the value is cut at a `=`, and a value with `-p` is not exported at all. -/
theorem C39_counterexample :
    (demo [cs!"export 'X=a=b'"]).env.get (cs!"X") = some (cs!"a") ∧
    (demo [cs!"export X=a-p"]).env.get (cs!"X") = none := by decide +kernel

/-! ## C40 -/

/-- `export x` as it is typed. -/
def exportNameLine (x : Str) : TCmd :=
  { name := some (.plain (cs!"export"))
    after := [.arg (.plain x)] }

/-- C40, as far as it holds: `export x` copies the variable to the outermost context.  (What is missing is
the environment; see below.) -/
theorem C40_visible_partial (w : World) (n : Nat) (s : Sh) (x v : Str) (hx : PlainWord x) (hn : Name x)
    (hp : ¬ Occurs (cs!"-p") x) (hc : x ≠ cs!"context") (hal : s.aliases.get (cs!"export") = none) (out : Nat)
    (hout : s.ctx.stack.getLast? = some out) (hv : valueOf s x = some v) (he : '=' ∉ v)
    (hq : ∀ q ∈ quotes, v.head? ≠ some q) :
    ∃ s', interactiveLine w (n + 1) (exportNameLine x).line.text s = (.ok (), s') ∧ s'.env = s.env ∧
      ∀ i y, varIn s'.ctx y i = if i = out ∧ y = x then some ⟨v, false⟩ else varIn s.ctx y i := by
  refine ⟨{ s with
    masked := true
    ctx := s.ctx.setCtx out ((s.ctx.heap out).addVarStruct x { value := v }) }, ?_, rfl,
    fun i y => CtxMgr.varIn_setVar _ _ _ _ _ _⟩
  rw [builtin_line w n (c := exportNameLine x) (name := cs!"export") (vs := [x])
        ⟨by simp [exportNameLine], by simp [exportNameLine], by simp [exportNameLine, Typed.Ok]; decide,
         by simpa [exportNameLine, Part.Ok, Typed.Ok] using hx, by simp [exportNameLine]⟩ rfl rfl (by decide)
        (by decide) hal (.cons (by simpa [Typed.text] using arrives_plain hx []) .nil)]
  apply reportM_ok
  rw [callBuiltin_export _ _ rfl]
  unfold bExport SimpleCommand.words
  have hp' : hasSub (cs!"-p") x = false := (hasSub_false _ _).2 fun a b e => hp ⟨a, b, e⟩
  have hc' : ¬ hasChar '=' x = true := by simpa [hasChar] using hn.2.1
  have hset : (s.ctx.heap out).addSet (x ++ '=' :: v) = some ((s.ctx.heap out).addVarStruct x { value := v }) :=
    CtxMgr.addSet_eq hn.2.1 (CtxMgr.keyOk_name hn _) he
      (.inr ⟨fun q hqq t e => hq q hqq (by rw [e]; rfl), rfl⟩) (by rintro ⟨q, hqq, e⟩; exact hq q hqq (by rw [e]; rfl))
  simp only [hp', Bool.false_eq_true, if_false, hc]
  unfold exportAll exportName expandVar CtxMgr.envCtx
  have hv' : (s.ctx.getVar x).map Var.value = some v := hv
  rw [if_neg hc']
  simp only [reduceCtorEq, if_false, bind_assoc, run_getS_bind, run_pure_bind, hout, unwrapM_some, hv', hset]
  rfl

theorem keeps_report {R Q : Sh → Sh → Prop} (F : EFrame R Q) {m : M Unit} (h : Keeps R Q m) :
    Keeps R Q (reportM m) := by
  unfold reportM
  refine .bind F.toSeq (.tryE h) fun r => ?_
  keeps

example : let s := atPrompt [cs!"X=a"]
    s.ctx.stack.getLast? = some 0 ∧ s.aliases.get (cs!"export") = none ∧ PlainWord (cs!"X") ∧
      (exportNameLine (cs!"X")).line.text = cs!" export X" ∧ valueOf s (cs!"X") = some (cs!"a") := by
  decide +kernel

/-- C40 fails: `export x` leaves the environment as it is, whatever the variables are. -/
theorem C40_environment (w : World) (n : Nat) (s s' : Sh) (x : Str) (hx : PlainWord x)
    (hp : ¬ Occurs (cs!"-p") x) (hc : x ≠ cs!"context") (hal : s.aliases.get (cs!"export") = none) (o : Out Unit)
    (hn : '=' ∉ x) (h : interactiveLine w (n + 1) (exportNameLine x).line.text s = (o, s')) : s'.env = s.env := by
  rw [builtin_line w n (c := exportNameLine x) (name := cs!"export") (vs := [x])
        ⟨by simp [exportNameLine], by simp [exportNameLine], by simp [exportNameLine, Typed.Ok]; decide,
         by simpa [exportNameLine, Part.Ok, Typed.Ok] using hx, by simp [exportNameLine]⟩ rfl rfl (by decide)
        (by decide) hal (.cons (by simpa [Typed.text] using arrives_plain hx []) .nil)] at h
  have F : EFrame (fun a b => b.env = a.env) (fun a b => b.env = a.env) :=
    { refl := fun _ => rfl
      trans := fun h1 h2 => h2.trans h1
      rq := fun h => h
      rqq := fun h1 h2 => h2.trans h1
      trace := fun _ _ _ => rfl }
  have hk : Keeps (fun a b => b.env = a.env) (fun a b => b.env = a.env)
      (callBuiltin w (evalFuel w n) ⟨none, cs!"export", some ⟨if [x] = [] then [] else redirsOf (exportNameLine x).after, [x]⟩⟩) := by
    rw [callBuiltin_export _ _ rfl]
    unfold bExport SimpleCommand.words
    have hp' : hasSub (cs!"-p") x = false := (hasSub_false _ _).2 fun a b e => hp ⟨a, b, e⟩
    have hc' : ¬ hasChar '=' x = true := by simpa [hasChar] using hn
    simp only [hp', Bool.false_eq_true, if_false, hc]
    unfold exportAll exportName expandVar setCtxMgr
    rw [if_neg hc']
    simp only [reduceCtorEq, if_false]
    refine .bind F.toSeq (.bind F.toSeq ?_ fun v => ?_) fun _ => ?_
    · keeps
    · refine .bind F.toSeq (by keeps) fun s1 => .bind F.toSeq (by keeps) fun env => ?_
      cases v with
      | some v => exact .bind F.toSeq (by keeps) fun c => .modS fun _ => rfl
      | none =>
        simp only
        cases s1.ctx.getFunction x with
        | none => exact .pure F.toSeq _
        | some f =>
          simp only
          refine .bind F.toSeq (.modS fun _ => rfl) fun _ => ?_
          split
          · exact F.eprintlnM _
          · exact .pure F.toSeq _
    · exact .pure F.toSeq _
  have hr := keeps_report F hk { s with masked := true }
  rw [h] at hr
  cases o <;> exact hr

/-- C40 fails. -/
theorem C40_counterexample :
    valueOf (demo [cs!"X=a", cs!"export X"]) (cs!"X") = some (cs!"a") ∧
      (demo [cs!"X=a", cs!"export X"]).env.get (cs!"X") = none := by
  decide +kernel

end Rsh
