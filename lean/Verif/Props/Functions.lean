import Verif.Spec.Functions
import Verif.Spec.Prompt
import Verif.Proofs.Call
import Verif.Proofs.Prompt
import Verif.Props.Calls

/-!
# Properties C67, C68: the status of functions, and return
-/

namespace Rsh

open Spec

theorem FunCall.expand (w : World) (rec : List AndOr → M Int) {c : Call} {s : Sh} {l : List AndOr} (h : FunCall c s l) :
    expandCommand w rec c.cmd.command s = (.ok (Call.simple c), s) := by
  have hcmd : c.cmd.command =
      ⟨none, c.name, if c.args = [] then none else some ⟨[], c.args.map fun a => a.1.text⟩⟩ := by
    simp [TCmd.command, Call.cmd, Typed.text, wordsOf_args, redirsOf_args]
  rw [hcmd, expandCommand_words w rec (vs := c.values) h.word h.alias (by simp)]
  · unfold Call.simple
    cases c.args <;> simp
  · show Arrive _ _ _
    unfold Call.values
    cases hA : c.args with
    | nil => exact .nil
    | cons a as =>
      rw [if_neg (by simp)]
      have := arrive_args h.means
      rwa [hA] at this

theorem FunCall.masked {c : Call} {s : Sh} {l : List AndOr} (h : FunCall c s l) : FunCall c { s with masked := true } l :=
  ⟨h.external, h.word, h.alias, h.typed, h.means, h.nul, h.function⟩

theorem FunCall.cmd_ok {c : Call} {s : Sh} {l : List AndOr} (h : FunCall c s l) : c.cmd.Ok where
  before := by simp [Call.cmd]
  noArg := by simp [Call.cmd]
  name := by
    intro t ht
    simp only [Call.cmd, Option.some.injEq] at ht
    subst ht
    exact h.word
  after := by
    intro p hp
    simp only [Call.cmd, List.mem_map] at hp
    obtain ⟨a, ha, rfl⟩ := hp
    exact h.typed a ha
  some := by simp [Call.cmd]

theorem isFunction_of_get {m : CtxMgr} {f : Str} {b : FunctionBody} (h : m.getFunction f = some b) :
    m.isFunction f = true := by
  unfold CtxMgr.getFunction at h
  unfold CtxMgr.isFunction
  split at h
  · rename_i ns v _
    rcases hb : m.byName ns with _ | id
    · rw [hb] at h; cases h
    · rw [hb] at h
      simp only [Option.bind_some] at h
      simp only [h, Option.isSome_some]
  · obtain ⟨id, hid, hf⟩ := List.exists_of_findSome?_eq_some h
    rw [List.any_eq_true]
    exact ⟨id, hid, by rw [hf]; rfl⟩

/-- What comes after the function has returned. -/
def afterCall : M Int := do
  let s ← getS
  if s.forked then exitM 0 else do
    modS fun s => { s with exitStatus := 0 }
    let id ← createJobM [] false
    deleteJobM id
    interruptsOn
    let s ← getS
    pure s.exitStatus

/-- A line that is a function call. -/
theorem FunCall.pipeline (w : World) (rec : List AndOr → M Int) {c : Call} {s : Sh} {l : List AndOr}
    (h : FunCall c s l) (bang : Bool) :
    evalPipeline w rec (.mk bang [.simple c.cmd.command] false) s =
      (do callFunction rec (Call.simple c); afterCall : M Int) { s with masked := true } := by
  have hargv : argvOf (Call.simple c) = some (c.name :: c.values) := by
    unfold argvOf Call.simple
    simp only
    rw [if_neg]
    rw [List.any_eq_true]
    rintro ⟨v, hv, hn⟩
    exact h.nul v hv (hasChar_iff.1 hn)
  have e1 : evalCommands w rec [.simple c.cmd.command] { s with masked := true } =
      (.ok [({ pid := -1, argv := c.name :: c.values, argv0 := c.name, cmd := c.name, status := none }, Call.simple c)],
        { s with masked := true }) := by
    unfold evalCommands evalCommand evalSimple
    simp only
    rw [if_neg (by rw [isBuiltin_iff]; exact h.external), bind_assoc, run_bind_ok (FunCall.expand w rec (FunCall.masked h)), hargv]
    rfl
  unfold evalPipeline
  rw [run_bind_ok (show interruptsOff s = (.ok (), { s with masked := true }) from rfl)]
  rw [run_bind_ok (show evalCommands w rec (Pipeline.seq (.mk bang [.simple c.cmd.command] false)) _ = _ from e1)]
  obtain ⟨io, hf⟩ := h.function
  simp only [List.isEmpty_cons, Bool.false_eq_true, if_false]
  show (runFunctions rec _ >>= _) _ = _
  have hisf : (Sh.ctx { s with masked := true }).isFunction (Call.simple c).name = true := isFunction_of_get hf
  unfold runFunctions
  rw [bind_assoc, run_getS_bind, if_pos hisf, bind_assoc, run_bind, run_bind]
  rcases callFunction rec (Call.simple c) { s with masked := true } with ⟨o, s1⟩
  cases o with
  | ok _ =>
    simp only
    unfold afterCall
    rw [bind_assoc, run_getS_bind, run_getS_bind]
    by_cases hfk : s1.forked = true
    · rw [if_pos hfk, if_pos hfk]
      rfl
    · rw [if_neg hfk, if_neg hfk]
      rfl
  | _ => rfl

theorem FunCall.line (w : World) (n : Nat) {c : Call} {s : Sh} {l : List AndOr} (h : FunCall c s l) :
    evalText w (n + 1) c.text s =
      (do callFunction (evalFuel w n) (Call.simple c); afterCall : M Int) { s with masked := true } := by
  have hok : (TPipe.line { first := c.cmd }).Ok := TCmd.line_ok (FunCall.cmd_ok h)
  have := evalText_pipe w n hok
  show evalText w (n + 1) (TPipe.line { first := c.cmd }).text s = _
  rw [this]
  exact FunCall.pipeline w _ h false

/-! ## C67 -/

/-- C67 fails in general: whatever the body of a function does, the status of a call that returns is 0. -/
theorem C67_zero (w : World) (n : Nat) (s s' : Sh) (c : Call) (l : List AndOr) (h : FunCall c s l) (st : Int)
    (he : evalText w (n + 1) c.text s = (.ok st, s')) : st = 0 ∧ s'.exitStatus = 0 := by
  rw [FunCall.line w n h] at he
  obtain ⟨_, s1, _, he⟩ := bind_ok_iff.1 he
  unfold afterCall at he
  rw [run_getS_bind] at he
  split at he
  · cases he
  · unfold createJobM deleteJobM modJc interruptsOn interruptsOff at he
    rw [run_modS_bind] at he
    obtain ⟨id, s2, h2, he⟩ := bind_ok_iff.1 he
    simp only [Prod.mk.injEq, Out.ok.injEq] at h2
    simp only [bind_assoc, run_modS_bind, run_getS_bind, run_pure, Prod.mk.injEq, Out.ok.injEq, ← h2.2] at he
    rw [← he.1, ← he.2]
    exact ⟨rfl, rfl⟩

/-- C67, as far as it holds: a call whose arguments can be bound runs its body, as a list of commands, in
the state it enters; if the status of the last command there is 0, then that is the status of the call. -/
theorem C67_success_partial (w : World) (n : Nat) (s : Sh) (c : Call) (l : List AndOr) (h : FunCall c s l)
    (hb : Bindables c s) (hg : Good s.ctx) (hf : s.forked = false) :
    ∃ s1, Entered c s s1 ∧ ∀ s2, evalTop w n (some l) s1 = (.ok 0, s2) →
      ∃ s', evalText w (n + 1) c.text s = (.ok 0, s') ∧ s'.exitStatus = 0 ∧ s'.trace = s2.trace := by
  obtain ⟨io, hfun⟩ := h.function
  obtain ⟨m1, hrun, hgood, hst, hpar, -, -, -, -⟩ :=
    call_entry (evalFuel w n) (Call.simple c) { s with masked := true } l io hg hfun hb.plain hb.free
  refine ⟨{ s with masked := true, ctx := m1 }, ⟨rfl, hst, fun i a hi => ?_⟩, ?_⟩
  · show (m1.getVar _).map Var.value = some a
    rw [hpar i a hi]
    rfl
  · intro s2 h2
    have h2 : evalFuel w n l { s with masked := true, ctx := m1 } = (.ok 0, s2) := h2
    obtain ⟨-, -, k, hk, -⟩ := (evalFuel_stacked w n l).ok h2 hgood
    have hk : s2.ctx.stack = k ++ (s.ctx.next :: s.ctx.stack) := by rw [hk]; exact congrArg _ hst
    have hfk : s2.forked = false := by
      have := ((Static.frame (p := False) w (fun h => h.elim)).evalFuel (fun _ => trivial) n l).ok h2
      rw [this.forked]
      exact hf
    obtain ⟨id, m2, hpop⟩ : ∃ id m2, s2.ctx.pop = some (id, m2) := by
      unfold CtxMgr.pop
      rw [hk]
      rcases hs : s.ctx.stack with _ | ⟨b, rest⟩
      · exact absurd hs hg.nonempty
      · rcases k with _ | ⟨k1, _ | ⟨k2, k3⟩⟩ <;> exact ⟨_, _, rfl⟩
    have hcall : callFunction (evalFuel w n) (Call.simple c) { s with masked := true } = (.ok (), { s2 with ctx := m2 }) := by
      unfold callFunction
      have : evalFunction (evalFuel w n) (Call.simple c) { s with masked := true } = (.ok (), { s2 with ctx := m2 }) := by
        rw [hrun, run_bind_ok (run_tryE_ok h2)]
        unfold popContext
        simp only [bind_assoc, run_getS_bind, hpop, unwrapM_some, run_pure_bind]
        rfl
      rw [run_bind_ok (run_tryE_ok this)]
      rfl
    rw [FunCall.line w n h, run_bind_ok hcall]
    unfold afterCall
    rw [run_getS_bind, if_neg (by simp [hfk])]
    exact ⟨_, rfl, rfl, rfl⟩

/-- C67 fails: the status of a failing last command, and the argument of `return`, are lost. -/
theorem C67_counterexample :
    (demo [cs!"a"] [.st (.exited 100 3)]).exitStatus = 3 ∧
    (demo [cs!"f() { a; }", cs!"f"] [.st (.exited 100 3)]).exitStatus = 0 ∧
    (demo [cs!"f() { return 3; }", cs!"f"]).exitStatus = 0 ∧
    started (demo [cs!"f() { a; }", cs!"f || b"] [.st (.exited 100 3)]).trace = [[cs!"a"]] := by
  decide +kernel

/-- The call `f x` as in `C67_success_partial`. -/
example : let s := demo [cs!"f() { a $1; }"]
    (∃ l, FunCall ⟨cs!"f", [word (cs!"x")]⟩ s l) ∧ Bindables ⟨cs!"f", [word (cs!"x")]⟩ s ∧ Good s.ctx ∧ s.forked = false ∧
    (demo [cs!"f() { a $1; }", cs!"f x"] [.st (.exited 100 0)]).exitStatus = 0 ∧
    started (demo [cs!"f() { a $1; }", cs!"f x"] [.st (.exited 100 0)]).trace = [[cs!"a", cs!"x"]] := by
  have hsome : ∃ l, ∃ io, (demo [cs!"f() { a $1; }"]).ctx.getFunction (cs!"f") = some ⟨.braceGroup l, io⟩ :=
    ⟨_, _, rfl⟩
  obtain ⟨l, hl⟩ := hsome
  refine ⟨⟨l, ⟨by decide, by decide, by decide +kernel, by decide, ?_, by decide, hl⟩⟩, ⟨?_, ?_⟩,
    demo_good _ _ _ rfl, by decide +kernel, by decide +kernel, by decide +kernel⟩
  · intro a ha
    simp only [List.mem_singleton] at ha
    subst ha
    exact means_word (by decide)
  · intro i a h
    have hi : i = 0 ∧ a = cs!"f" ∨ i = 1 ∧ a = cs!"x" := by
      rcases i with _ | _ | i
      · exact .inl ⟨rfl, by simpa using h.symm⟩
      · exact .inr ⟨rfl, by simpa [Call.values, word] using h.symm⟩
      · simp [Call.values, word] at h
    have key : ∀ (i : Nat) (c : Char), i < 2 → c = 'f' ∨ c = 'x' → PlainArg i [c] := by
      intro i c hi hc
      refine ⟨?_, ?_, ?_, ?_, ?_⟩
      · rcases hc with rfl | rfl <;> decide
      · rcases hc with rfl | rfl <;> decide
      · intro q hq t e
        have := congrArg List.length e
        simp at this
      · rcases hc with rfl | rfl <;> unfold LoneQuote <;> decide
      · rcases (show i = 0 ∨ i = 1 by omega) with rfl | rfl <;> rcases hc with rfl | rfl <;> decide
    rcases hi with ⟨rfl, rfl⟩ | ⟨rfl, rfl⟩
    · exact key 0 'f' (by omega) (.inl rfl)
    · exact key 1 'x' (by omega) (.inr rfl)
  · intro i hi b hb
    have : ∀ i, i ≤ 1 → ((demo [cs!"f() { a $1; }"]).ctx.getVar (natStr i)).all (fun b => !b.readonly) = true := by
      decide +kernel
    have := this i hi
    rw [hb] at this
    simpa using this

/-! ## C68 -/

theorem return_pipe (w : World) (rec : List AndOr → M Int) {c : Call} {s s1 : Sh} (hc : c.Ok s)
    (h1 : Returns c s s1) {p : TPipe} (hp : p.first = c.cmd) :
    evalPipeline w rec p.pipeline s = (.ok 0, s1) := by
  obtain ⟨hn, h1⟩ := h1
  rw [Call.pipeline w rec hc hp, callBuiltin_return w rec (show (Call.simple c).name = cs!"return" from hn)]
  unfold bReturn
  show ((match c.values with
    | [] => pure ()
    | x :: _ => do
      let code ← unwrapM .unwrap (parseI32 x)
      modS fun s => { s with exitStatus := code } : M Unit) >>= fun _ => pure 0) _ = _
  rcases h1 with ⟨hv, rfl⟩ | ⟨k, hk, hv, rfl⟩
  · rw [hv]
    rfl
  · rcases hvs : c.values with _ | ⟨x, vs⟩
    · rw [hvs] at hv; cases hv
    · rw [hvs] at hv
      simp only [List.head?_cons, Option.some.injEq] at hv
      simp only
      rw [hv, parseI32_intStr hk]
      rfl

/-- C68, as far as it holds: nothing after `return` runs in its own pipeline, and none of the pipelines
joined to it by `||`. -/
theorem C68_skips_partial (w : World) (n : Nat) (s s1 : Sh) (c : Call) (hc : c.Ok s) (h1 : Returns c s s1)
    (ch : TChain) (hok : ch.line.Ok) (hp : ch.first.first = c.cmd) (ho : AllOr ch) :
    evalText w (n + 1) ch.line.text s = (.ok 0, s1) := by
  rw [evalText_chain w n hok]
  clear hok
  induction ch using TChain.snocInd with
  | one p =>
    show evalAndOr w _ (.mk none none p.pipeline) s = _
    unfold evalAndOr
    exact return_pipe w _ hc h1 hp
  | snoc d op p ih =>
    rw [TChain.snoc_tree]
    unfold evalAndOr
    have hop : op = .or := ho (op, p) (by simp [TChain.snoc])
    rw [run_bind_ok (ih hp fun l hl => ho l (by simp [TChain.snoc, hl])), hop]
    rfl

/-- C68 fails in general: what follows `return` after a semicolon runs as if it were alone. -/
theorem C68_continues (w : World) (n : Nat) (s s1 : Sh) (c : Call) (hc : c.Ok s) (h1 : Returns c s s1)
    (d : TChain) (ds : List TChain) (hok : (⟨d, ds⟩ : TLine).Ok) :
    evalText w (n + 1) (⟨{ first := { first := c.cmd } }, d :: ds⟩ : TLine).text s =
      evalText w (n + 1) (⟨d, ds⟩ : TLine).text s1 := by
  have hok2 : (⟨{ first := { first := c.cmd } }, d :: ds⟩ : TLine).Ok := by
    intro x hx
    simp only [TLine.cmds, List.flatMap_cons, List.mem_append, TPipe.cmds, List.mem_cons, List.not_mem_nil, or_false,
      List.flatMap_nil] at hx
    rcases hx with rfl | hx
    · exact Call.cmd_ok hc
    · exact hok x (by simpa [TLine.cmds, TPipe.cmds, or_assoc] using hx)
  rw [evalText_line w n hok2, evalText_line w n hok]
  have hcons : ∀ (st : Int) (a : AndOr) (as : List AndOr), evalListFrom w (evalFuel w n) st (a :: as) =
      evalAndOr w (evalFuel w n) a >>= fun st => evalListFrom w (evalFuel w n) st as := fun _ _ _ => rfl
  show evalListFrom w _ (-1) (_ :: _ :: _) s = evalListFrom w _ (-1) (_ :: _) s1
  rw [hcons, hcons]
  have : evalAndOr w (evalFuel w n) (TChain.tree { first := { first := c.cmd } }) s = (.ok 0, s1) := by
    show evalAndOr w _ (.mk none none _) s = _
    unfold evalAndOr
    exact return_pipe w _ hc h1 rfl
  rw [run_bind_ok this, hcons]

/-- C68 fails: commands after `return` run, in a function and outside. -/
theorem C68_counterexample :
    started (demo [cs!"f() { return 1; a; }", cs!"f"] [.st (.exited 100 0)]).trace = [[cs!"a"]] ∧
    started (demo [cs!"f() { return && a; }", cs!"f"] [.st (.exited 100 0)]).trace = [[cs!"a"]] ∧
    started (demo [cs!"f() { return || a; }", cs!"f"] [.st (.exited 100 0)]).trace = [] ∧
    started (demo [cs!"f() { return | a; }", cs!"f"] [.st (.exited 100 0)]).trace = [] := by
  decide +kernel

/-- A chain as in `C68_skips_partial`. -/
example : let c : Call := ⟨cs!"return", [word (cs!"3")]⟩
    let ch : TChain := ⟨{ first := c.cmd, rest := [⟨[], some (.plain (cs!"b")), []⟩] }, [(.or, wordPipe (cs!"a"))]⟩
    ch.line.text = cs!" return 3 | b || a" ∧
    Returns c (demoShell []) { demoShell [] with masked := true, exitStatus := 3 } ∧ AllOr ch := by
  refine ⟨by decide +kernel, ⟨by decide, .inr ⟨3, by unfold Code; omega, by decide, rfl⟩⟩, ?_⟩
  intro l hl
  simp only [List.mem_singleton] at hl
  rw [hl]

end Rsh
