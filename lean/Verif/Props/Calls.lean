import Verif.Proofs.Calls
import Verif.Proofs.Session
import Verif.Spec.Calls
import Verif.Props.Scopes

/-!
# Properties C33-C36: function calls and the context stack
-/

namespace Rsh

open Spec

theorem callArgs_numbered (c : SimpleCommand) : callParams c = numbered 0 (callArgs c) := rfl

theorem plain_bindable {i : Nat} {a : Str} (h : PlainArg i a) : Bindable (natStr i, a) where
  noEq := natStr_no_eq i
  unq := natStr_unqualified i
  key := by
    apply keyOk_natStr_few
    rw [List.filter_cons_of_neg (by decide)]; exact h.digits
  valEq := h.noEq
  valQ := .inr ⟨h.noQuotes, rfl⟩
  valL := h.notLone

theorem CtxMgr.getFunction_pushNew {m : CtxMgr} (g : Good m) (f : Str) :
    m.pushNew.getFunction f = m.getFunction f := by
  have hh : ∀ i, i < m.next → m.pushNew.heap i = m.heap i := by
    intro i hi
    simp [CtxMgr.pushNew, Nat.ne_of_lt hi]
  have hn : m.pushNew.heap m.next = {} := by simp [CtxMgr.pushNew]
  unfold CtxMgr.getFunction
  cases splitNs f with
  | none =>
    show (m.next :: m.stack).findSome? _ = _
    rw [List.findSome?_cons, hn]
    show m.stack.findSome? _ = _
    exact findSome_congr fun i hi => by rw [hh i (g.stackLt i hi)]
  | some p =>
    obtain ⟨ns, v⟩ := p
    show (m.exported.get ns).bind _ = (m.exported.get ns).bind _
    cases he : m.exported.get ns with
    | none => rfl
    | some id =>
      simp only [Option.bind_some]
      rw [hh id (g.exportedLt (ns, id) (lookup_mem he))]

/-- What happens between the start of a call and its body. -/
theorem call_entry (rec : List AndOr → M Int) (c : SimpleCommand) (s : Sh) (l : List AndOr) (io)
    (hg : Good s.ctx) (hf : s.ctx.getFunction c.name = some ⟨.braceGroup l, io⟩)
    (hargs : ∀ i a, (callArgs c)[i]? = some a → PlainArg i a)
    (hro : ∀ i, i ≤ c.words.length → ∀ b, s.ctx.getVar (natStr i) = some b → b.readonly = false) :
    ∃ m1, evalFunction rec c s = (do
        let _ ← tryE (rec l)
        let _ ← popContext
        pure ()) { s with ctx := m1 } ∧
      Good m1 ∧
      m1.stack = s.ctx.next :: s.ctx.stack ∧
      (∀ i a, (callArgs c)[i]? = some a → m1.getVar (natStr i) = some { value := a }) ∧
      (∀ y, Unqualified y → (∀ i, i ≤ c.words.length → y ≠ natStr i) →
        m1.getVar y = s.ctx.getVar y) ∧
      (∀ f, m1.getFunction f = s.ctx.getFunction f) ∧
      (∀ y, (∀ i, i ≤ c.words.length → y ≠ natStr i) →
        ∀ j ∈ s.ctx.stack, varIn m1 y j = varIn s.ctx y j) ∧
      (∀ i a, (callArgs c)[i]? = some a → s.ctx.stack.findSome? (varIn m1 (natStr i)) =
        if (s.ctx.getVar (natStr i)).isSome then some { value := a } else none) := by
  have hamp : ['&'] ∉ c.words := by
    intro h
    obtain ⟨k, hk, e⟩ := List.getElem_of_mem h
    exact (hargs (k + 1) ['&'] (by simp [callArgs, List.getElem?_eq_getElem hk, e])).notAmp rfl
  have hnew : s.ctx.next ∉ s.ctx.stack := fun h => Nat.lt_irrefl _ (hg.stackLt _ h)
  have hheap : ∀ y j, j ∈ s.ctx.stack → varIn s.ctx.pushNew y j = varIn s.ctx y j := by
    intro y j hj
    have : j ≠ s.ctx.next := fun e => hnew (e ▸ hj)
    simp [varIn, CtxMgr.pushNew, this]
  have hfresh : ∀ y, varIn s.ctx.pushNew y s.ctx.next = none := by
    intro y; simp [varIn, CtxMgr.pushNew]
  have hstk : s.ctx.pushNew.stack = s.ctx.next :: s.ctx.stack := rfl
  have hfs : ∀ y, s.ctx.stack.findSome? (varIn s.ctx.pushNew y) = s.ctx.stack.findSome? (varIn s.ctx y) :=
    fun y => findSome_congr fun j hj => hheap y j hj
  have hget : ∀ y, Unqualified y → s.ctx.pushNew.getVar y = s.ctx.getVar y := by
    intro y hy
    rw [CtxMgr.getVar_unqualified _ hy, CtxMgr.getVar_unqualified _ hy, hstk, List.findSome?_cons,
      hfresh, hfs]
  have hmem : ∀ p ∈ callParams c, ∃ i, i ≤ c.words.length ∧ p.1 = natStr i ∧
      (callArgs c)[i]? = some p.2 := by
    intro p hp
    rw [callArgs_numbered] at hp
    obtain ⟨k, h1, h2⟩ := mem_numbered hp
    refine ⟨k, ?_, by simpa using h2, h1⟩
    have := (List.getElem?_eq_some_iff.1 h1).1
    simp only [callArgs, List.length_cons] at this
    omega
  have hkeys : ∀ y, (∀ i, i ≤ c.words.length → y ≠ natStr i) → y ∉ (callParams c).map Prod.fst := by
    intro y hy h
    obtain ⟨p, hp, rfl⟩ := List.mem_map.1 h
    obtain ⟨i, hi, e, _⟩ := hmem p hp
    exact hy i hi e
  have hin : ∀ i a, (callArgs c)[i]? = some a → (natStr i, a) ∈ callParams c := by
    intro i a h
    have := numbered_mem (i := 0) h
    rw [Nat.zero_add] at this
    exact this
  obtain ⟨m1, hrun, hst, _, _, hfun, hall, hout, hrest⟩ :=
    bindAll_spec (callParams c) { s with ctx := s.ctx.pushNew } s.ctx.next s.ctx.stack hstk hnew
      (callParams_nodup c)
      (fun p hp => by
        obtain ⟨i, _, e, h⟩ := hmem p hp
        have := plain_bindable (hargs i p.2 h)
        rwa [← e] at this)
      (fun p _ => hfresh _)
      (fun p hp b h => by
        obtain ⟨i, hi, e, _⟩ := hmem p hp
        have h' : s.ctx.pushNew.getVar p.1 = some b := h
        rw [e, hget _ (natStr_unqualified i)] at h'
        exact hro i hi b h')
  have hfun' : ∀ f, s.ctx.pushNew.getFunction f = s.ctx.getFunction f := by
    intro f
    exact CtxMgr.getFunction_pushNew hg f
  have hgood : Good m1 := by
    have hk : ∀ ps, Keeps (Stacked False) (fun _ _ => True) (bindAll ps) := by
      intro ps
      induction ps with
      | nil => exact .pure Stacked.seq _
      | cons p ps ih => exact .bind Stacked.seq (Stacked.addVarContext _) fun _ => ih
    exact ((hk (callParams c)).ok hrun (good_pushNew hg)).1
  refine ⟨m1, ?_, hgood, hst.trans hstk, fun i a h => hall _ (hin i a h), ?_, fun f => (hfun f).trans (hfun' f),
    fun y hy j hj => (hout y (hkeys y hy) j).trans (hheap y j hj), ?_⟩
  · rw [evalFunction_eq rec c s _ hf hamp, run_bind_ok hrun]
    show (evalCompound rec (.braceGroup l) >>= _) _ = _
    simp only [evalCompound, bind_assoc, pure_bind]
  · intro y hy hne
    have e : varIn m1 y = varIn s.ctx.pushNew y := funext (hout y (hkeys y hne))
    rw [← hget y hy, CtxMgr.getVar_unqualified _ hy, CtxMgr.getVar_unqualified _ hy, e, hst]
  · intro i a h
    rw [hrest _ (hin i a h)]
    simp only
    rw [hfs, CtxMgr.getVar_unqualified _ (natStr_unqualified i)]

/-! ## C33 -/

/-- C33, the part that holds: a call whose arguments are plain runs its body in a new context on top
of the caller's, in which `$0` is the function's name and `$i` the i-th argument; every other variable
and every function is the caller's.  Afterwards that context is dropped.  Missing: arguments with `=`,
with outer quotes, or with too many digits, and the argument `&` (`C33_counterexample`; what
these become is in `C33_exact` and `C33_digits`), and parameters hidden by a read-only variable. -/
theorem C33_parameters_partial (rec : List AndOr → M Int) (c : SimpleCommand) (s : Sh)
    (l : List AndOr) (io : Option (List IoRedirect)) (hg : Good s.ctx)
    (hf : s.ctx.getFunction c.name = some ⟨.braceGroup l, io⟩)
    (hargs : ∀ i a, (callArgs c)[i]? = some a → PlainArg i a)
    (hro : ∀ i, i ≤ c.words.length → ∀ b, s.ctx.getVar (natStr i) = some b → b.readonly = false) :
    ∃ s1, s1 = { s with ctx := s1.ctx } ∧ s1.ctx.stack = s.ctx.next :: s.ctx.stack ∧
      evalFunction rec c s = (do
        let _ ← tryE (rec l)
        let _ ← popContext
        pure ()) s1 ∧
      (s1.ctx.getVar (cs!"0")).map Var.value = some c.name ∧
      (∀ i a, c.words[i]? = some a → (s1.ctx.getVar (natStr (i + 1))).map Var.value = some a) ∧
      (∀ y, Unqualified y → (∀ i, i ≤ c.words.length → y ≠ natStr i) →
        s1.ctx.getVar y = s.ctx.getVar y) ∧
      (∀ f, s1.ctx.getFunction f = s.ctx.getFunction f) := by
  obtain ⟨m1, hrun, _, hst, hpar, hoth, hfun, _, _⟩ := call_entry rec c s l io hg hf hargs hro
  refine ⟨{ s with ctx := m1 }, rfl, hst, hrun, ?_, ?_, hoth, hfun⟩
  · have := hpar 0 c.name rfl
    show (m1.getVar (natStr 0)).map Var.value = _
    rw [this]; rfl
  · intro i a h
    show (m1.getVar (natStr (i + 1))).map Var.value = _
    rw [hpar (i + 1) a h]; rfl

/-- C33 fails for arguments with `=` (cut there), with outer quotes (removed) and for `&` (it is not
bound, nor is anything after it). -/
theorem C33_counterexample :
    started (demo [cs!"f() { echo $1; }", cs!"f 'a=b'"]).trace = [[cs!"echo", cs!"a"]] ∧
    started (demo [cs!"f() { echo $1; }", cs!"f \"'a'\""]).trace = [[cs!"echo", cs!"a"]] ∧
    started (demo [cs!"f() { echo $1 $2; }", cs!"f '&' b"]).trace = [[cs!"echo", cs!"$1", cs!"$2"]] := by
  decide +kernel

theorem demo_good (lines : List Str) (waits : List WRes) (files : AMap Str)
    (h : demoOut lines waits files = .ok ()) : Good (demo lines waits files).ctx := by
  have S := KeepsGood.seq
  have h0 : Good (demoShell waits).ctx := by
    have hk : Keeps KeepsGood (fun _ _ => True) (do pushContextNew; setArg0 : M Unit) :=
      .bind S (.modS fun s g => good_pushNew g) fun _ =>
        .bind S (.getS S) fun _ => KeepsGood.addVarAt (demoWorld []) _ _
    exact hk.ok (a := ()) (s := initSh false 1 2 (cs!"/") [(cs!"PATH", cs!"/bin"), (cs!"HOME", cs!"/home")] waits)
      rfl (good_init ..)
  have hk : ∀ ls, Keeps KeepsGood (fun _ _ => True) (typeLines (demoWorld files) ls) := by
    intro ls
    induction ls with
    | nil => exact .pure S _
    | cons l ls ih =>
      exact .bind S (KeepsGood.of_stacked ((Stacked.frame _ False).interactiveLine (fun _ h => h.elim) _ _))
        fun _ => ih
  exact (hk lines).ok (s := demoShell waits) (Prod.ext h rfl) h0

/-- The call `f a 'b c'` of a function `f` defined before. -/
example : Good (demo [cs!"f() { echo $1 $2; }"]).ctx ∧
    ((demo [cs!"f() { echo $1 $2; }"]).ctx.getFunction (cs!"f")).isSome = true ∧
    (∀ i a, (callArgs ⟨none, cs!"f", some ⟨[], [cs!"a", cs!"b c"]⟩⟩)[i]? = some a → PlainArg i a) ∧
    (∀ i, i ≤ 2 → ∀ b, (demo [cs!"f() { echo $1 $2; }"]).ctx.getVar (natStr i) = some b →
      b.readonly = false) ∧
    started (demo [cs!"f() { echo $0 $1 $2; }", cs!"f a 'b c'"]).trace =
      [[cs!"echo", cs!"f", cs!"a", cs!"b c"]] := by
  refine ⟨demo_good _ _ _ rfl, by decide +kernel, ?_, ?_, by decide +kernel⟩
  · have hq : ∀ a : Str, a ∈ [cs!"f", cs!"a", cs!"b c"] → (∀ q ∈ quotes, a.head? ≠ some q) := by decide
    intro i a h
    have hm := List.mem_of_getElem? h
    have hqa := hq a hm
    refine ⟨?_, ?_, fun q hq t e => hqa q hq (by rw [e]; rfl),
      fun ⟨q, hq, e⟩ => hqa q hq (by rw [e]; rfl), ?_⟩
    · exact (by decide : ∀ a ∈ [cs!"f", cs!"a", cs!"b c"], '=' ∉ a) a hm
    · exact (by decide : ∀ a ∈ [cs!"f", cs!"a", cs!"b c"], a ≠ ['&']) a hm
    · have : i < 3 := (List.getElem?_eq_some_iff.1 h).1
      match i, this with
      | 0, _ => cases h; decide
      | 1, _ => cases h; decide
      | 2, _ => cases h; decide
  · intro i hi
    match i, hi with
    | 0, _ => decide +kernel
    | 1, _ => decide +kernel
    | 2, _ => decide +kernel

/-! ## C34 -/

/-- C34, the part that holds: when the body returns (normally or with an error) without having assigned
a positional parameter itself, a positional parameter the caller did not have is unset again after
the call, and one whose number is larger than the number of arguments is as before.  The last part says
how C34 fails: the caller's other parameters now have the values they had in the call. -/
theorem C34_restored_partial (rec : List AndOr → M Int) (c : SimpleCommand) (s : Sh)
    (l : List AndOr) (io : Option (List IoRedirect)) (hg : Good s.ctx)
    (hf : s.ctx.getFunction c.name = some ⟨.braceGroup l, io⟩)
    (hargs : ∀ i a, (callArgs c)[i]? = some a → PlainArg i a)
    (hro : ∀ i, i ≤ c.words.length → ∀ b, s.ctx.getVar (natStr i) = some b → b.readonly = false)
    (hbody : ∀ s1 o s2, s1 = { s with ctx := s1.ctx } → s1.ctx.stack = s.ctx.next :: s.ctx.stack →
      rec l s1 = (o, s2) → (outcome o = .ok ∨ outcome o = .err) ∧
      s2.ctx.stack = s1.ctx.stack ∧ ∀ k, ∀ j ∈ s1.ctx.stack, varIn s2.ctx (natStr k) j = varIn s1.ctx (natStr k) j) :
    ∃ s', evalFunction rec c s = (.ok (), s') ∧ s'.ctx.stack = s.ctx.stack ∧
      (∀ k, s.ctx.getVar (natStr k) = none → s'.ctx.getVar (natStr k) = none) ∧
      (∀ k, c.words.length < k → s'.ctx.getVar (natStr k) = s.ctx.getVar (natStr k)) ∧
      (∀ k a, (callArgs c)[k]? = some a → s.ctx.getVar (natStr k) ≠ none →
        s'.ctx.getVar (natStr k) = some { value := a }) := by
  obtain ⟨m1, hrun, _, hst, hpar, hoth, hfun, hvar, hrest⟩ := call_entry rec c s l io hg hf hargs hro
  rcases hr : rec l { s with ctx := m1 } with ⟨o, s2⟩
  obtain ⟨ho, hst2, hv2⟩ := hbody { s with ctx := m1 } _ _ rfl hst hr
  have htry : ∃ r, tryE (rec l) { s with ctx := m1 } = (.ok r, s2) := by
    rw [run_tryE, hr]
    cases o <;> simp [outcome] at ho
    · exact ⟨_, rfl⟩
    · exact ⟨_, rfl⟩
  obtain ⟨r, htry⟩ := htry
  have hst2' : s2.ctx.stack = s.ctx.next :: s.ctx.stack := by rw [hst2]; exact hst
  have hpop : s2.ctx.pop = some (s.ctx.next, { s2.ctx with stack := s.ctx.stack }) := by
    rcases h : s.ctx.stack with _ | ⟨a, t⟩
    · exact absurd h hg.nonempty
    · simp [CtxMgr.pop, hst2', h]
  have hpopM : popContext s2 = (.ok s.ctx.next, { s2 with ctx := { s2.ctx with stack := s.ctx.stack } }) := by
    unfold popContext
    simp only [run_getS_bind, hpop]
    rfl
  have hget : ∀ k, ({ s2.ctx with stack := s.ctx.stack } : CtxMgr).getVar (natStr k)
      = s.ctx.stack.findSome? (varIn m1 (natStr k)) := by
    intro k
    rw [CtxMgr.getVar_unqualified _ (natStr_unqualified k)]
    refine findSome_congr fun j hj => ?_
    exact hv2 k j (by show j ∈ m1.stack; rw [hst]; exact List.mem_cons_of_mem _ hj)
  have hlarge : ∀ k, c.words.length < k →
      s.ctx.stack.findSome? (varIn m1 (natStr k)) = s.ctx.getVar (natStr k) := by
    intro k hk
    rw [CtxMgr.getVar_unqualified _ (natStr_unqualified k)]
    refine findSome_congr fun j hj => hvar _ (fun i hi e => ?_) j hj
    have := natStr_inj e
    omega
  refine ⟨{ s2 with ctx := { s2.ctx with stack := s.ctx.stack } }, ?_, rfl, fun k hk => ?_, fun k hk => ?_,
    fun k a hk hn => ?_⟩
  · rw [hrun, run_bind_ok htry, run_bind_ok hpopM]; rfl
  · rw [hget]
    by_cases h : k ≤ c.words.length
    · have hlt : k < (callArgs c).length := by simp [callArgs]; omega
      rw [hrest k _ (List.getElem?_eq_getElem hlt), hk]; rfl
    · rw [hlarge k (by omega)]; exact hk
  · rw [hget]; exact hlarge k hk
  · rw [hget, hrest k a hk]
    rcases h : s.ctx.getVar (natStr k) with _ | b
    · exact absurd h hn
    · rfl

/-- C34 fails: `$0` of the session becomes the name of the function called last, and `$1` of a
calling function the argument of the function it called. -/
theorem C34_counterexample :
    valueOf (demo [cs!"f() { echo; }"]) (cs!"0") = some (cs!"rsh") ∧
    valueOf (demo [cs!"f() { echo; }", cs!"f"] [.st (.exited 100 0)]) (cs!"0") = some (cs!"f") ∧
    started (demo [cs!"g() { pwd; }", cs!"f() { g y; echo $1; }", cs!"f x"]).trace = [[cs!"echo", cs!"y"]] := by
  decide +kernel

/-- The body `{ g() { pwd; }; }` keeps the positional parameters. -/
example (w : World) (n : Nat) : ∃ l, parse (cs!"g() { pwd; }") = some (some l) ∧
    ∀ s1 o s2, evalFuel w (n + 1) l s1 = (o, s2) → (outcome o = .ok ∨ outcome o = .err) ∧
      s2.ctx.stack = s1.ctx.stack ∧
      ∀ k, ∀ j ∈ s1.ctx.stack, varIn s2.ctx (natStr k) j = varIn s1.ctx (natStr k) j := by
  have hp : ∃ b, parse (cs!"g() { pwd; }") = some (some [.mk none none
      (.mk false [.funcDef (cs!"g") b] false)]) := ⟨_, rfl⟩
  obtain ⟨b, hp⟩ := hp
  refine ⟨_, hp, ?_⟩
  intro s1 o s2 h
  have hst := Shape.addFunction s1.ctx (cs!"g") b
  have hv : ∀ k j, varIn (s1.ctx.addFunction (cs!"g") b).1 (natStr k) j = varIn s1.ctx (natStr k) j := by
    intro k j
    have hc : ∀ c : Ctx, (c.addFunction (cs!"g") b).1.vars = c.vars := by
      intro c; unfold Ctx.addFunction; split <;> rfl
    have hset : ∀ id, varIn (s1.ctx.setCtx id ((s1.ctx.heap id).addFunction (cs!"g") b).1) (natStr k) j
        = varIn s1.ctx (natStr k) j := by
      intro id
      simp only [varIn, CtxMgr.setCtx]
      split
      · next e => subst e; rw [hc]
      · rfl
    unfold CtxMgr.addFunction
    split
    · exact hset _
    · split
      · exact hset _
      · rfl
  simp only [evalFuel, evalListWith, evalListFrom, evalAndOr, evalPipeline,
      Pipeline.seq, evalCommands, evalCommand, addFunctionM, interruptsOff, bind_assoc, run_modS_bind,
      run_getS_bind, pure_bind, setCtxMgr] at h
  rcases hm : s1.ctx.addFunction (cs!"g") b with ⟨m, ro⟩
  rw [hm] at h hst hv
  cases ro <;> cases h <;> exact ⟨.inl rfl, hst.stack, fun k j _ => hv k j⟩

/-! ## C35 -/

theorem filesOk {w : World} (h : NoFileFails w) (n : Nat) : FilesOk w (evalFuel w n) :=
  fun tr p t cc h1 h2 => h n tr p t cc h1 h2

/-- C35, the part that holds: a function call that returns keeps the caller's contexts, in order, at
the bottom of the stack, so the global context is still there; and the stack is exactly the caller's
when no program file loaded by `export context` fails.  Missing: a body that loads a failing file
(`C35_counterexample`). -/
theorem C35_stack_partial (w : World) (n : Nat) (c : SimpleCommand) (s s' : Sh) (hg : Good s.ctx)
    (h : evalFunction (evalFuel w n) c s = (.ok (), s')) :
    Good s'.ctx ∧ s.ctx.stack <:+ s'.ctx.stack ∧ s'.ctx.stack.getLast? = s.ctx.stack.getLast? ∧
    (NoFileFails w → s'.ctx.stack = s.ctx.stack) := by
  obtain ⟨g, _, l, e, _⟩ := (Stacked.func (evalFuel_stacked w n) c).ok h hg
  refine ⟨g, ⟨l, e.symm⟩, ?_, fun hw => ?_⟩
  · rw [e, List.getLast?_append]
    rcases hs : s.ctx.stack.getLast? with _ | x
    · exact absurd (List.getLast?_eq_none_iff.1 hs) hg.nonempty
    · rfl
  · obtain ⟨_, _, l, e, q⟩ := (Stacked.func (evalFuel_balanced w (filesOk hw) n) c).ok h hg
    rw [e, q trivial]; rfl

/-- C35 fails: a function that runs `export context` on a file whose evaluation fails returns with the
file's context still on the stack. -/
theorem C35_counterexample :
    (demo [cs!"f() { export context ns=bad; }"] [] [(cs!"bad", cs!"cd /nope")]).ctx.stack = [1, 0] ∧
    (demo [cs!"f() { export context ns=bad; }", cs!"f"] [] [(cs!"bad", cs!"cd /nope")]).ctx.stack
      = [2, 1, 0] := by
  decide +kernel

/-- In a world whose only program file defines a function no file fails. -/
theorem defs_ok : NoFileFails (demoWorld [(cs!"lib", cs!"f() { cd /nope; }")]) := by
  intro n tr p t cc h1 h2 s e s'
  have ht : t = cs!"f() { cd /nope; }" := by
    unfold demoWorld at h1
    simp only [AMap.get, List.lookup_cons, List.lookup_nil] at h1
    split at h1
    · next h =>
      split at h
      · cases h1; cases h; rfl
      · cases h
    · cases h1
  subst ht
  have hp : ∃ b, parse (cs!"f() { cd /nope; }") = some (some [.mk none none
      (.mk false [.funcDef (cs!"f") b] false)]) := ⟨_, rfl⟩
  obtain ⟨b, hp⟩ := hp
  rw [hp] at h2
  cases h2
  cases n with
  | zero => intro h; cases h
  | succ n =>
    simp only [evalTop, evalCC, evalFuel, evalListWith, evalListFrom, evalAndOr, evalPipeline,
      Pipeline.seq, evalCommands, evalCommand, addFunctionM, interruptsOff, bind_assoc, run_modS_bind,
      run_getS_bind, pure_bind, setCtxMgr]
    rcases s.ctx.addFunction (cs!"f") b with ⟨m, ro⟩
    cases ro <;> intro h <;> cases h

example : (demo [cs!"f() { export context ns=lib; }", cs!"f"] [] [(cs!"lib", cs!"f() { cd /nope; }")]).ctx.stack
    = [1, 0] := by decide +kernel

/-! ## C36 -/

/-- C36, the part that holds: evaluating any program that returns, normally or with an error, keeps the
contexts that were there, in order, at the bottom of the stack, so the global context is never lost; and
the stack is exactly as before when no program file loaded by `export context` fails.  Missing: such
a file (`C36_counterexample`). -/
theorem C36_stack_partial (w : World) (n : Nat) (cc : CompleteCommand) (s s' : Sh) (hg : Good s.ctx)
    (h : (∃ st, evalTop w n cc s = (.ok st, s')) ∨ ∃ e, evalTop w n cc s = (.err e, s')) :
    Good s'.ctx ∧ s.ctx.stack <:+ s'.ctx.stack ∧ s'.ctx.stack.getLast? = s.ctx.stack.getLast? ∧
    (NoFileFails w → s'.ctx.stack = s.ctx.stack) := by
  have key : ∀ eq, (eq → NoFileFails w) → Stacked eq s s' := by
    intro eq heq
    have := (Stacked.frame w eq).evalTop (fun n q => filesOk (heq q) n) n cc
    rcases h with ⟨st, h⟩ | ⟨e, h⟩
    · exact this.ok h
    · exact this.err h
  obtain ⟨g, _, l, e, _⟩ := key False (fun h => h.elim) hg
  refine ⟨g, ⟨l, e.symm⟩, ?_, fun hw => ?_⟩
  · rw [e, List.getLast?_append]
    rcases hs : s.ctx.stack.getLast? with _ | x
    · exact absurd (List.getLast?_eq_none_iff.1 hs) hg.nonempty
    · rfl
  · obtain ⟨_, _, l, e, q⟩ := key True (fun _ => hw) hg
    rw [e, q trivial]; rfl

/-- C36 fails: loading a program file that fails leaves its context on the stack, so that later
assignments go to it. -/
theorem C36_counterexample :
    (demo [] [] [(cs!"bad", cs!"cd /nope")]).ctx.stack = [1, 0] ∧
    (demo [cs!"export context ns=bad"] [] [(cs!"bad", cs!"cd /nope")]).ctx.stack = [2, 1, 0] := by
  decide +kernel

/-- The well-formedness asked for in C33-C36 holds at every prompt of every session. -/
theorem C36_reachable (w : World) (s : Sh) (h : AtPrompt w s) : Good s.ctx :=
  AtPrompt_good h

example : (demo [cs!"f() { echo $1; }", cs!"f a; cd /nope"] [.st (.exited 100 0)]).ctx.stack = [1, 0] := by
  decide +kernel

end Rsh
