import Verif.Spec.Namespaces
import Verif.Props.Builtins
import Verif.Props.Layout
import Verif.Props.Calls
import Verif.Props.Words

/-!
# Property C120: files as namespaces
-/

namespace Rsh

open Spec

theorem assign_pipeline (w : World) (rec : List AndOr → M Int) {s : Sh} {a : Str × Typed} (ha : SimpleAssign a)
    (hal : s.aliases.get [] = none) :
    evalPipeline w rec (.mk false [.simple (assignment a.1 a.2).command] false) s =
      (do addVarContext (a.1 ++ '=' :: a.2.text); pure 0 : M Int) { s with masked := true } := by
  have hcmd : (assignment a.1 a.2).command = ⟨some ⟨[], [a.1 ++ '=' :: a.2.text]⟩, [], none⟩ := rfl
  have hd : ∀ x ∈ [a.1 ++ '=' :: a.2.text], '$' ∉ x := by
    intro x hx
    rw [List.mem_singleton.1 hx]
    simp only [List.mem_append, List.mem_cons, not_or]
    exact ⟨fun h => (ha.word.2.1 _ h).2 (by decide), by decide, ha.noDollar⟩
  have key : expandCommand w rec (assignment a.1 a.2).command { s with masked := true } =
      (.ok ⟨some ⟨[], [a.1 ++ '=' :: a.2.text]⟩, [], none⟩, { s with masked := true }) := by
    rw [hcmd]
    unfold expandCommand
    rw [run_bind_ok (aliasLookup_none (s := { s with masked := true }) hal)]
    unfold expandVars expandVarsIn
    rw [bind_assoc, run_getS_bind]
    simp only [mapM_expandAssign hd]
    rfl
  refine (evalPipeline_builtin w rec (c := (assignment a.1 a.2).command) false false ?_ key).trans ?_
  · rw [hcmd]
    show ([] : Str) ∈ builtins
    decide
  · rfl

/-- Assigning to a variable that no outer context has goes to the innermost one. -/
theorem assign_inner {m : CtxMgr} {id : Nat} {st : List Nat} (hst : m.stack = id :: st) {a : Str × Typed}
    (ha : SimpleAssign a) (hout : ∀ i ∈ st, varIn m a.1 i = none)
    (hro : ∀ b, varIn m a.1 id = some b → b.readonly = false) :
    m.addVar (a.1 ++ '=' :: a.2.text) =
      some (m.setCtx id ((m.heap id).addVarStruct a.1 { value := bare a.2 })) := by
  have hnone : st.findSome? (varIn m a.1) = none := List.findSome?_eq_none_iff.2 hout
  rw [CtxMgr.addVar_eq ha.name.2.1]
  · have ht : m.target a.1 = some id := by
      obtain ⟨t, ht, pre, post, e, h1, h2⟩ := CtxMgr.target_spec (m := m) (x := a.1) (by rw [hst]; simp)
      rw [ht]
      rw [hst] at e
      cases pre with
      | nil => simp at e; rw [e.1]
      | cons p pre =>
        exfalso
        simp at e
        rcases h2 with h2 | ⟨h2, -⟩
        · rw [hout t (by rw [e.2]; simp)] at h2
          cases h2
        · cases h2
    rw [ht, Option.bind_some, addSet_bare ha.name ha.typed ha.noEq]
    rfl
  · rw [hst]
    intro b hb
    rw [List.findSome?_cons] at hb
    split at hb
    · next v hv => cases hb; exact hro _ hv
    · rw [hnone] at hb; cases hb

/-- A list of assignments to variables that no outer context has. -/
theorem assigns_eval (w : World) (rec : List AndOr → M Int) {id : Nat} {st : List Nat} (as : List (Str × Typed))
    (r : Int) {s : Sh} (hst : s.ctx.stack = id :: st) (hid : id ∉ st) (has : ∀ a ∈ as, SimpleAssign a)
    (hal : s.aliases.get [] = none) (hout : ∀ a ∈ as, ∀ i ∈ st, varIn s.ctx a.1 i = none)
    (hro : ∀ x b, varIn s.ctx x id = some b → b.readonly = false) :
    ∃ (r' : Int) (m : CtxMgr) (b : Bool),
      evalListFrom w rec r (as.map fun b => TChain.tree { first := { first := assignment b.1 b.2 } }) s =
        (.ok r', { s with masked := b, ctx := m }) ∧
      m.stack = s.ctx.stack ∧ m.exported = s.ctx.exported ∧ m.next = s.ctx.next ∧
      (∀ i, i ≠ id → m.heap i = s.ctx.heap i) ∧
      (∀ x, (varIn m x id).map Var.value = (lastValue as x).or ((varIn s.ctx x id).map Var.value)) := by
  induction as generalizing s r with
  | nil => exact ⟨r, s.ctx, s.masked, rfl, rfl, rfl, rfl, fun _ _ => rfl, fun _ => rfl⟩
  | cons a as ih =>
    have ha := has a List.mem_cons_self
    have hadd := assign_inner hst ha (hout a List.mem_cons_self) (fun b => hro a.1 b)
    generalize hm1 : s.ctx.setCtx id ((s.ctx.heap id).addVarStruct a.1 { value := bare a.2 }) = m1 at hadd
    have hv : ∀ x i, varIn m1 x i = if i = id ∧ x = a.1 then some { value := bare a.2 } else varIn s.ctx x i := by
      intro x i
      rw [← hm1]
      exact CtxMgr.varIn_setVar _ _ _ _ _ _
    have hst1 : m1.stack = id :: st := by rw [← hm1]; exact hst
    obtain ⟨r', m, b, h1, h2, h3, h4, h5, h6⟩ := ih 0 (s := { s with masked := true, ctx := m1 }) hst1
      (fun a ha => has a (List.mem_cons_of_mem _ ha)) hal
      (by
        intro a' ha' i hi
        show varIn m1 a'.1 i = none
        rw [hv, if_neg]
        · exact hout a' (List.mem_cons_of_mem _ ha') i hi
        · rintro ⟨rfl, -⟩; exact hid hi)
      (by
        intro x b hb
        change varIn m1 x id = some b at hb
        rw [hv] at hb
        split at hb
        · cases hb; rfl
        · exact hro x b hb)
    refine ⟨r', m, b, ?_, h2.trans (hst1.trans hst.symm), ?_, ?_, ?_, ?_⟩
    · rw [List.map_cons]
      show (evalAndOr w rec (.mk none none (.mk false [.simple (assignment a.1 a.2).command] false)) >>= _) s = _
      unfold evalAndOr
      rw [run_bind, assign_pipeline w rec ha hal]
      have : (do addVarContext (a.1 ++ '=' :: a.2.text); pure 0 : M Int) { s with masked := true } =
          (.ok 0, { s with masked := true, ctx := m1 }) := by
        have e : addVarContext (a.1 ++ '=' :: a.2.text) { s with masked := true } =
            (.ok (), { s with masked := true, ctx := m1 }) := by
          unfold addVarContext
          rw [run_getS_bind]
          show (unwrapM _ (s.ctx.addVar _) >>= _) _ = _
          rw [hadd]
          rfl
        rw [run_bind_ok e]
        rfl
      rw [this]
      exact h1
    · rw [h3, ← hm1]; rfl
    · rw [h4, ← hm1]; rfl
    · intro i hi
      rw [h5 i hi]
      show m1.heap i = _
      rw [← hm1]
      exact if_neg hi
    · intro x
      rw [h6]
      show (lastValue as x).or ((varIn m1 x id).map Var.value) = _
      rw [hv]
      show _ = ((lastValue as x).or (if a.1 = x then some (bare a.2) else none)).or _
      cases lastValue as x with
      | some v => rfl
      | none =>
        simp only [Option.none_or, true_and]
        by_cases hx : x = a.1
        · simp [hx]
        · simp [hx, Ne.symm hx]

theorem findSome?_ext {f g : α → Option β} {l : List α} (h : ∀ a ∈ l, f a = g a) :
    l.findSome? f = l.findSome? g := by
  induction l with
  | nil => rfl
  | cons a l ih =>
    rw [List.findSome?_cons, List.findSome?_cons, h a List.mem_cons_self,
      ih fun b hb => h b (List.mem_cons_of_mem _ hb)]

/-- C120, as far as it holds: `export context ns=file`, typed at a prompt, where the file has one or more assignments,
in any layout, to variables the shell does not have: afterwards `ns::x` is the value the file gave to `x`, and unset if
it gave none; no other variable, of the shell or of another namespace, has changed, and nothing else but that the file
was read.  Missing: variables the shell has (see below), and other commands in the file. -/
theorem C120_file_partial (w : World) (n : Nat) (s : Sh) (hp : AtPrompt w s) (ns file : Str) (hns : PlainWord ns)
    (hfile : PlainWord file) (hself : file ≠ cs!"self") (a : Str × Typed) (as : List (Str × Typed))
    (has : ∀ b ∈ a :: as, SimpleAssign b) (hnew : ∀ b ∈ a :: as, valueOf s b.1 = none)
    (halias : s.aliases.get (cs!"export") = none ∧ s.aliases.get [] = none)
    (l : List (Str × Sym)) (hl : Layout l) (hsyms : l.map Prod.snd = (assignments a as).syms) (e : Str) (he : LineEnd e)
    (hread : w.readFile s.trace file = .text (laidOut l e)) :
    ∃ s' m b, interactiveLine w (n + 2) (exportContextLine ns file).line.text s = (.ok (), s') ∧
      s' = { s with masked := b, ctx := m, trace := .readFile file :: s.trace } ∧
      s'.ctx.stack = s.ctx.stack ∧
      (Unqualified (ns ++ [':']) → ∀ x, Unqualified x →
        valueOf s' (ns ++ ':' :: ':' :: x) = lastValue (a :: as) x) ∧
      (∀ ns' x, ns' ≠ ns → Unqualified (ns' ++ [':']) → Unqualified x →
        valueOf s' (ns' ++ ':' :: ':' :: x) = valueOf s (ns' ++ ':' :: ':' :: x)) ∧
      (∀ x, Unqualified x → valueOf s' x = valueOf s x) := by
  have hg := AtPrompt_good hp
  have hok : (assignments a as).Ok := by
    intro c hc
    have : ∃ b ∈ a :: as, c = assignment b.1 b.2 := by
      unfold TLine.cmds assignments at hc
      simp only [List.mem_flatMap, List.mem_cons, List.mem_map] at hc
      obtain ⟨ch, rfl | ⟨b, hb, rfl⟩, hc⟩ := hc
      · exact ⟨a, List.mem_cons_self, by simpa [TPipe.cmds] using hc⟩
      · exact ⟨b, List.mem_cons_of_mem _ hb, by simpa [TPipe.cmds] using hc⟩
    obtain ⟨b, hb, rfl⟩ := this
    exact assignment_ok (has b hb).word (has b hb).typed
  have hparse : parse (laidOut l e) = some (some ((a :: as).map fun b =>
      TChain.tree { first := { first := assignment b.1 b.2 } })) := by
    rw [parse_laidOut hok hl hsyms he, parse_tline hok]
    simp [TLine.tree, assignments, Function.comp_def]
  have hnsq : '=' ∉ ns := fun h => (hns.2.1 _ h).2 (by decide)
  have hfq : '=' ∉ file := fun h => (hfile.2.1 _ h).2 (by decide)
  have hnewid : s.ctx.next ∉ s.ctx.stack := fun h => Nat.lt_irrefl _ (hg.stackLt _ h)
  obtain ⟨r', m, b, h1, h2, h3, h4, h5, h6⟩ := assigns_eval w (evalFuel w n) (id := s.ctx.next) (st := s.ctx.stack)
    (a :: as) (-1) (s := { s with masked := true, ctx := s.ctx.pushNew, trace := .readFile file :: s.trace })
    rfl hnewid has halias.2
    (by
      intro b hb i hi
      have := hnew b hb
      unfold valueOf at this
      rw [CtxMgr.getVar_unqualified _ (has b hb).name.2.2.1, Option.map_eq_none_iff,
        List.findSome?_eq_none_iff] at this
      rw [← this i hi]
      show (((if i = s.ctx.next then ({} : Ctx) else s.ctx.heap i)).vars.lookup b.1) = _
      rw [if_neg (by rintro rfl; exact hnewid hi)]
      rfl)
    (by
      intro x b hb
      have : varIn s.ctx.pushNew x s.ctx.next = none := by
        show (((if s.ctx.next = s.ctx.next then ({} : Ctx) else s.ctx.heap s.ctx.next)).vars.lookup x) = _
        rw [if_pos rfl]
        rfl
      rw [this] at hb
      cases hb)
  have hfresh : ∀ x, (varIn m x s.ctx.next).map Var.value = lastValue (a :: as) x := by
    intro x
    rw [h6]
    have : varIn s.ctx.pushNew x s.ctx.next = none := by
      show (((if s.ctx.next = s.ctx.next then ({} : Ctx) else s.ctx.heap s.ctx.next)).vars.lookup x) = _
      rw [if_pos rfl]
      rfl
    rw [this]
    simp
  have hold : ∀ i, i ≠ s.ctx.next → m.heap i = s.ctx.heap i := by
    intro i hi
    rw [h5 i hi]
    exact if_neg hi
  obtain ⟨b0, rest, hst⟩ : ∃ b0 rest, s.ctx.stack = b0 :: rest := by
    cases h : s.ctx.stack with
    | nil => exact absurd h hg.nonempty
    | cons b0 rest => exact ⟨b0, rest, rfl⟩
  have hmst : m.stack = s.ctx.next :: b0 :: rest := by
    rw [h2]
    show s.ctx.next :: s.ctx.stack = _
    rw [hst]
  have hpop : m.pop = some (s.ctx.next, { m with stack := b0 :: rest }) := by
    unfold CtxMgr.pop
    rw [hmst]
  refine ⟨{ s with
    masked := b
    ctx := CtxMgr.addContext { m with stack := b0 :: rest } ns s.ctx.next
    trace := .readFile file :: s.trace }, _, _, ?_, rfl, hst.symm, ?_, ?_, ?_⟩
  · rw [builtin_line w (n + 1) (c := exportContextLine ns file) (name := cs!"export")
        (vs := [cs!"context", ns ++ '=' :: file])
        ⟨by simp [exportContextLine], by simp [exportContextLine], by simp [exportContextLine, Typed.Ok]; decide,
         by
          intro p hp
          simp only [exportContextLine, List.mem_cons, List.not_mem_nil, or_false] at hp
          rcases hp with rfl | rfl
          · show PlainWord _
            decide
          · exact ⟨hns, hfile⟩, by simp [exportContextLine]⟩ rfl rfl (by decide) (by decide) halias.1
        (.cons (by
          have := arrives_plain (get := valueOf s) (x := cs!"context") (by decide) []
          rwa [List.append_nil] at this) (.cons (arrives_plain hns _) .nil))]
    apply reportM_ok
    rw [callBuiltin_export _ _ rfl]
    unfold bExport SimpleCommand.words
    have h0 : hasSub (cs!"-p") (cs!"context") = false := by decide
    simp only [h0, Bool.false_eq_true, if_false, if_true]
    unfold exportContext
    have hc : hasChar '=' (ns ++ '=' :: file) = true := by simp [hasChar]
    rw [run_getS_bind]
    simp only [CtxMgr.current, hst, List.head?_cons, unwrapM_some, run_pure_bind, hc, if_true,
      splitSet_eq _ _ hnsq, takeWhile_none hfq, hself, if_false]
    have hcreate : createContextFromFile w (evalFuel w (n + 1)) file { s with masked := true } =
        (.ok s.ctx.next, { s with
          masked := b
          ctx := { m with stack := b0 :: rest }
          trace := .readFile file :: s.trace }) := by
      unfold createContextFromFile
      rw [run_bind_ok (show readFileM w file { s with masked := true } =
        (.ok (w.readFile s.trace file), { s with masked := true, trace := .readFile file :: s.trace }) from rfl)]
      rw [hread]
      simp only [hparse]
      rw [run_bind_ok (show pushContextNew { s with masked := true, trace := .readFile file :: s.trace } =
        (.ok (), { s with masked := true, ctx := s.ctx.pushNew, trace := .readFile file :: s.trace }) from rfl)]
      rw [run_bind, run_tryE]
      rw [show evalCC (evalFuel w (n + 1)) (some ((a :: as).map fun b =>
        TChain.tree { first := { first := assignment b.1 b.2 } })) = evalListFrom w (evalFuel w n) (-1)
          ((a :: as).map fun b => TChain.tree { first := { first := assignment b.1 b.2 } }) from rfl, h1]
      show popContext _ = _
      unfold popContext
      rw [run_getS_bind]
      simp only [hpop, unwrapM_some, run_pure_bind]
      rfl
    rw [run_bind_ok hcreate]
    rfl
  · intro hq x hx
    unfold valueOf
    rw [CtxMgr.getVar_qualified _ hq hx]
    show (((m.exported.insert ns s.ctx.next).get ns).bind (varIn m x)).map Var.value = _
    rw [AMap.get_insert, if_pos rfl]
    exact hfresh x
  · intro ns' x hne hq hx
    unfold valueOf
    rw [CtxMgr.getVar_qualified _ hq hx, CtxMgr.getVar_qualified _ hq hx]
    show (((m.exported.insert ns s.ctx.next).get ns').bind (varIn m x)).map Var.value = _
    rw [AMap.get_insert, if_neg hne, h3]
    show ((s.ctx.exported.get ns').bind (varIn m x)).map Var.value = ((s.ctx.exported.get ns').bind _).map _
    cases hget : s.ctx.exported.get ns' with
    | none => rfl
    | some id =>
      have hid : id ≠ s.ctx.next := by
        rintro rfl
        exact Nat.lt_irrefl _ (hg.exportedLt _ (lookup_mem hget))
      show (varIn m x id).map _ = (varIn s.ctx x id).map _
      unfold varIn
      rw [hold id hid]
  · intro x hx
    unfold valueOf
    rw [CtxMgr.getVar_unqualified _ hx, CtxMgr.getVar_unqualified _ hx]
    show ((b0 :: rest).findSome? (varIn m x)).map _ = _
    rw [← hst]
    congr 1
    refine findSome?_ext fun i hi => ?_
    unfold varIn
    rw [hold i (by rintro rfl; exact hnewid hi)]

/-- C120 fails: a variable the shell has is changed by the file, and is not in the namespace. -/
theorem C120_counterexample :
    let s := demo [cs!"X=old", cs!"export context ns=lib"] [] [(cs!"lib", cs!"X=new")]
    valueOf s (cs!"X") = some (cs!"new") ∧ valueOf s (cs!"ns::X") = none := by
  decide +kernel

example : let s := demo [cs!"X=old", cs!"export context ns=lib"] [] [(cs!"lib", cs!"Y=new; Z='a b' # end\n")]
    valueOf s (cs!"X") = some (cs!"old") ∧ valueOf s (cs!"Y") = none ∧
    valueOf s (cs!"ns::Y") = some (cs!"new") ∧ valueOf s (cs!"ns::Z") = some (cs!"a b") := by
  decide +kernel

/-- The hypotheses of `C120_file_partial` for the file `Y=new;Z='a b'`. -/
example : let s := atPrompt [cs!"X=old"] [] [(cs!"lib", cs!"Y=new;Z='a b'")]
    let l := [([], Sym.word (.plain (cs!"Y"))), ([], .op .eq), ([], .word (.plain (cs!"new"))), ([], .op .semi),
      ([], .word (.plain (cs!"Z"))), ([], .op .eq), ([], .word (.single (cs!"a b")))]
    AtPrompt (demoWorld [(cs!"lib", cs!"Y=new;Z='a b'")]) s ∧ PlainWord (cs!"ns") ∧ PlainWord (cs!"lib") ∧
    (∀ b ∈ [(cs!"Y", Typed.plain (cs!"new")), (cs!"Z", .single (cs!"a b"))], SimpleAssign b ∧ valueOf s b.1 = none) ∧
    s.aliases.get (cs!"export") = none ∧ s.aliases.get [] = none ∧ Layout l ∧
    l.map Prod.snd = (assignments (cs!"Y", .plain (cs!"new")) [(cs!"Z", .single (cs!"a b"))]).syms ∧ LineEnd [] ∧
    (demoWorld [(cs!"lib", cs!"Y=new;Z='a b'")]).readFile s.trace (cs!"lib") = .text (laidOut l []) := by
  have hb : ∀ c ∈ ([] : Str), Blank c := by simp
  refine ⟨atPrompt_ok (by decide +kernel), by decide, by decide, ?_, by decide +kernel, by decide +kernel, ?_, by decide,
    .blanks hb, rfl⟩
  · intro b hm
    simp only [List.mem_cons, List.not_mem_nil, or_false] at hm
    rcases hm with rfl | rfl
    · exact ⟨⟨by decide, ⟨by decide, by decide, unqualified_iff.2 rfl, by decide⟩, by decide, by decide, by decide⟩,
        by decide +kernel⟩
    · exact ⟨⟨by decide, ⟨by decide, by decide, unqualified_iff.2 rfl, by decide⟩, by decide, by decide, by decide⟩,
        by decide +kernel⟩
  · exact .cons hb (show PlainWord _ by decide) (fun _ h => h) (.cons hb trivial (fun _ h => h)
      (.cons hb (show PlainWord _ by decide) (fun _ h => h) (.cons hb trivial (fun _ h => h)
      (.cons hb (show PlainWord _ by decide) (fun _ h => h) (.cons hb trivial (fun _ h => h)
      (.one hb (show Typed.Ok (.single (cs!"a b")) by decide)))))))

/-- The line `export context name`. -/
def Spec.exportContextName (name : Str) : TCmd where
  name := some (.plain (cs!"export"))
  after := [.arg (.plain (cs!"context")), .arg (.plain name)]

theorem exportContextName_run (w : World) (n : Nat) {s : Sh} {name : Str} (hname : PlainWord name)
    (halias : s.aliases.get (cs!"export") = none) :
    interactiveLine w (n + 1) (exportContextName name).line.text s =
      reportM (exportContext w (evalFuel w n) name) { s with masked := true } := by
  have hpw : ∀ {x : Str}, PlainWord x → Arrives (expansion (valueOf s) x) x := by
    intro x hx
    have := arrives_plain (get := valueOf s) hx []
    rwa [List.append_nil] at this
  rw [builtin_line w n (c := exportContextName name) (name := cs!"export")
      (vs := [cs!"context", name])
      ⟨by simp [exportContextName], by simp [exportContextName], by simp [exportContextName, Typed.Ok]; decide,
       by
        intro p hp
        simp only [exportContextName, List.mem_cons, List.not_mem_nil, or_false] at hp
        rcases hp with rfl | rfl
        · show PlainWord _
          decide
        · exact hname, by simp [exportContextName]⟩ rfl rfl (by decide) (by decide) halias
      (.cons (hpw (by decide)) (.cons (hpw hname) .nil))]
  rfl

theorem exportContextLine_run (w : World) (n : Nat) {s : Sh} {ns file : Str} (hns : PlainWord ns)
    (hfile : PlainWord file) (halias : s.aliases.get (cs!"export") = none) :
    interactiveLine w (n + 1) (exportContextLine ns file).line.text s =
      reportM (exportContext w (evalFuel w n) (ns ++ '=' :: file)) { s with masked := true } := by
  rw [builtin_line w n (c := exportContextLine ns file) (name := cs!"export")
      (vs := [cs!"context", ns ++ '=' :: file])
      ⟨by simp [exportContextLine], by simp [exportContextLine], by simp [exportContextLine, Typed.Ok]; decide,
       by
        intro p hp
        simp only [exportContextLine, List.mem_cons, List.not_mem_nil, or_false] at hp
        rcases hp with rfl | rfl
        · show PlainWord _
          decide
        · exact ⟨hns, hfile⟩, by simp [exportContextLine]⟩ rfl rfl (by decide) (by decide) halias
      (.cons (by
        have := arrives_plain (get := valueOf s) (x := cs!"context") (by decide) []
        rwa [List.append_nil] at this) (.cons (arrives_plain hns _) .nil))]
  rfl

theorem exportContext_split {w : World} {rec : List AndOr → M Int} {ns file : Str} (hns : PlainWord ns)
    (hfile : PlainWord file) (hself : file ≠ cs!"self") :
    exportContext w rec (ns ++ '=' :: file) = (do
      let s ← getS
      let _ ← unwrapM .unwrap s.ctx.current
      let id ← createContextFromFile w rec file
      addContextM ns id) := by
  have hnsq : '=' ∉ ns := fun h => (hns.2.1 _ h).2 (by decide)
  have hfq : '=' ∉ file := fun h => (hfile.2.1 _ h).2 (by decide)
  have hc : hasChar '=' (ns ++ '=' :: file) = true := by simp [hasChar]
  unfold exportContext
  simp only [hc, if_true, splitSet_eq _ _ hnsq, takeWhile_none hfq, hself, if_false]

/-- C120: `export context name` does the same for every name: it takes the file `context` as the namespace
`context`, and the name is not used. -/
theorem C120_name (w : World) (n : Nat) (s : Sh) (name : Str) (hname : PlainWord name) (hself : name ≠ cs!"self")
    (halias : s.aliases.get (cs!"export") = none) :
    interactiveLine w (n + 1) (exportContextName name).line.text s =
      interactiveLine w (n + 1) (exportContextLine (cs!"context") (cs!"context")).line.text s := by
  rw [exportContextName_run w n hname halias, exportContextLine_run w n (by decide) (by decide) halias,
    exportContext_split (by decide) (by decide) (by decide)]
  have hq : hasChar '=' name = false := by
    rw [Bool.eq_false_iff, Ne, hasChar_iff]
    exact fun h => (hname.2.1 _ h).2 (by decide)
  unfold exportContext
  simp only [hq, hself, if_false, Bool.false_eq_true]

/-- C120: `export context self`, where the current context has `$0`, does what `export context name=self` does for that
name; where it has none, the shell crashes. -/
theorem C120_self (w : World) (n : Nat) (s : Sh) (cur : Nat) (rest : List Nat) (hst : s.ctx.stack = cur :: rest)
    (halias : s.aliases.get (cs!"export") = none) :
    (∀ v, varIn s.ctx (cs!"0") cur = some v → PlainWord v.value →
      interactiveLine w (n + 1) (exportContextName (cs!"self")).line.text s =
        interactiveLine w (n + 1) (exportContextLine v.value (cs!"self")).line.text s) ∧
    (varIn s.ctx (cs!"0") cur = none →
      outcome (interactiveLine w (n + 1) (exportContextName (cs!"self")).line.text s).1 = .panic .unwrap) := by
  have hcur : s.ctx.current = some cur := by rw [CtxMgr.current, hst]; rfl
  have hq : hasChar '=' (cs!"self") = false := by decide
  refine ⟨fun v hv hpv => ?_, fun hv => ?_⟩
  · rw [exportContextName_run w n (by decide) halias, exportContextLine_run w n hpv (by decide) halias]
    have hc : hasChar '=' (v.value ++ '=' :: cs!"self") = true := by simp [hasChar]
    have hnsq : '=' ∉ v.value := fun h => (hpv.2.1 _ h).2 (by decide)
    have hv' : (s.ctx.heap cur).getVar (cs!"0") = some v := hv
    unfold reportM exportContext
    rw [run_bind, run_bind]
    simp only [run_tryE]
    congr 1
    simp only [run_getS_bind, hcur, unwrapM_some, run_pure_bind, hq, Bool.false_eq_true, if_false, if_true, hv', hc,
      splitSet_eq _ _ hnsq, takeWhile_none (show '=' ∉ cs!"self" by decide)]
  · rw [exportContextName_run w n (by decide) halias]
    have hv' : (s.ctx.heap cur).getVar (cs!"0") = none := hv
    unfold reportM exportContext
    rw [run_bind]
    simp only [run_tryE]
    simp only [run_getS_bind, hcur, unwrapM_some, run_pure_bind, hq, Bool.false_eq_true, if_false, if_true, hv']
    rfl

/-- Both cases occur: at the prompt of a session `$0` is `rsh`. -/
example : let s := atPrompt []
    s.ctx.stack = [1, 0] ∧ (varIn s.ctx (cs!"0") 1).map Var.value = some (cs!"rsh") ∧
    s.aliases.get (cs!"export") = none ∧ PlainWord (cs!"rsh") := by decide +kernel

example : let s := atPrompt [cs!"unset 0"]
    s.ctx.stack = [1, 0] ∧ (varIn s.ctx (cs!"0") 1).map Var.value = none ∧ s.aliases.get (cs!"export") = none := by
  decide +kernel

end Rsh
