import Verif.Spec.Wholes
import Verif.Proofs.Printing
import Verif.Props.Functions
import Verif.Props.Lists

/-!
# Properties of all programs: lists, chains, pipelines, definitions, calls and groups
-/

namespace Rsh

open Spec

theorem evalText_program (w : World) (n : Nat) {l : List AndOr} (h : Program l) :
    evalText w n (programText l) = evalFuel w n l := by
  unfold evalText
  rw [parse_program h]
  rfl

theorem evalText_chain1 (w : World) (n : Nat) {a : AndOr} (h : Chain a) :
    evalText w (n + 1) (programText [a]) = evalAndOr w (evalFuel w n) a := by
  rw [evalText_program w _ (.one h)]
  exact evalListFrom_one _ _ (-1) _

theorem evalText_pipe1 (w : World) (n : Nat) {p : Pipeline} (h : Pipe p) :
    evalText w (n + 1) (programText [.mk none none p]) = evalPipeline w (evalFuel w n) p := by
  rw [evalText_chain1 w n (.one h)]
  unfold evalAndOr
  rfl

theorem interactiveLine_program (w : World) (n : Nat) {l : List AndOr} (h : Program l) :
    interactiveLine w n (programText l) =
      (do match ← tryE (evalText w n (programText l)) with
          | .ok _ => pure ()
          | .error e => printlnM e : M Unit) := by
  have hne : programText l ≠ [] := by
    intro e
    have := parse_program h
    rw [e, show parse [] = some none from rfl] at this
    cases this
  unfold interactiveLine evalText
  rw [if_neg hne, parse_program h]
  rfl

/-- C58, for all programs: a list does what its first command does, and then, if that has a status, what the rest does;
the status of the first is not passed on. -/
theorem C58_programs (w : World) (n : Nat) (a b : AndOr) (as : List AndOr) (h : Program (a :: b :: as)) :
    evalText w (n + 1) (programText (a :: b :: as)) =
      (do let _ ← evalText w (n + 1) (programText [a]); evalText w (n + 1) (programText (b :: as)) : M Int) := by
  obtain ⟨ha, hb⟩ : Chain a ∧ Program (b :: as) := by cases h with | more h1 h2 => exact ⟨h1, h2⟩
  rw [evalText_program w _ h, evalText_chain1 w n ha, evalText_program w _ hb]
  rfl

/-- A command that is one word. -/
def Spec.wordCmd (x : Str) : Command := .simple ⟨none, x, none⟩

theorem wordCmd_cmd {x : Str} (h : OneWord x) : Cmd (wordCmd x) :=
  .simple ⟨by simp, by simp, .inl h⟩

theorem wordCmd_pipe {x : Str} (h : OneWord x) : Pipe (.mk false [wordCmd x] false) :=
  .mk (.one (wordCmd_cmd h)) (by simp)

theorem oneWord_a : OneWord (cs!"a") := .plain (by decide) (by decide) (by decide)

theorem oneWord_pwd : OneWord (cs!"pwd") := .plain (by decide) (by decide) (by decide)

/-- `f() { a && pwd ; } ; a`. -/
example : Program (definition (cs!"f") [.mk (some (.mk none none (.mk false [wordCmd (cs!"a")] false))) (some .and)
      (.mk false [wordCmd (cs!"pwd")] false)] ++ [.mk none none (.mk false [wordCmd (cs!"a")] false)]) :=
  .more (.one (.mk (.one (.func (.plain (by decide) (by decide) (by decide))
    (.one (.more (.one (wordCmd_pipe oneWord_a)) (wordCmd_pipe oneWord_pwd))))) (by simp)))
    (.one (.one (wordCmd_pipe oneWord_a)))

/-- C57, for all programs: after `&&` a pipeline runs exactly if what precedes has the status 0, after `||` exactly if
it has another; if what precedes does not end with a status, neither does the chain. -/
theorem C57_programs (w : World) (n : Nat) (l : AndOr) (op : CondExec) (p : Pipeline) (h : Chain (.mk (some l) (some op) p))
    (s s1 : Sh) (o : Out Int) (hl : evalText w (n + 1) (programText [l]) s = (o, s1)) :
    (∀ st, o = .ok st → GoesOn op st → evalText w (n + 1) (programText [.mk (some l) (some op) p]) s =
      evalText w (n + 1) (programText [.mk none none p]) s1) ∧
    (∀ st, o = .ok st → ¬ GoesOn op st →
      evalText w (n + 1) (programText [.mk (some l) (some op) p]) s = (.ok st, s1)) ∧
    ((∀ st, o ≠ .ok st) → evalText w (n + 1) (programText [.mk (some l) (some op) p]) s = (o, s1)) := by
  obtain ⟨h1, h2⟩ : Chain l ∧ Pipe p := by cases h with | more h1 h2 => exact ⟨h1, h2⟩
  rw [evalText_chain1 w n h1] at hl
  rw [evalText_chain1 w n h, evalText_pipe1 w n h2]
  refine ⟨?_, ?_, ?_⟩
  · rintro st rfl hg
    unfold evalAndOr
    rw [run_bind_ok hl]
    cases op with
    | and => simp only [show st = 0 from hg, ne_eq, not_true_eq_false, if_false]
    | or => simp only [show ¬ st = 0 from hg, if_false]
  · rintro st rfl hg
    unfold evalAndOr
    rw [run_bind_ok hl]
    cases op with
    | and => simp only [show ¬ st = 0 from hg, ne_eq, not_false_eq_true, if_true]; rfl
    | or =>
      have : st = 0 := Classical.not_not.1 hg
      simp only [this, if_true]; rfl
  · intro ho
    unfold evalAndOr
    exact run_bind_stop hl ho _

theorem evalCommand_inShell (w : World) (rec : List AndOr → M Int) {c : Command} (h : InShell c) (s : Sh)
    {r : Option (Process × SimpleCommand)} {s' : Sh} (he : evalCommand w rec c s = (.ok r, s')) : r = none := by
  cases h with
  | builtin hb =>
    unfold evalCommand evalSimple at he
    dsimp only at he
    rw [if_pos ((isBuiltin_iff _).2 hb)] at he
    obtain ⟨_, _, -, he⟩ := bind_ok_iff.1 he
    cases he
    rfl
  | define =>
    unfold evalCommand at he
    obtain ⟨_, _, -, he⟩ := bind_ok_iff.1 he
    cases he
    rfl

theorem evalCommands_inShell (w : World) (rec : List AndOr → M Int) {c : Command} (h : InShell c) (xs ys : List Command) :
    evalCommands w rec (xs ++ c :: ys) = evalCommands w rec (xs ++ [c]) := by
  induction xs with
  | nil =>
    funext s
    show evalCommands w rec (c :: ys) s = evalCommands w rec [c] s
    unfold evalCommands
    rw [run_bind, run_bind]
    rcases he : evalCommand w rec c s with ⟨o, s1⟩
    cases o with
    | ok r => rw [evalCommand_inShell w rec h s he]
    | _ => rfl
  | cons x xs ih =>
    show evalCommands w rec (x :: (xs ++ c :: ys)) = evalCommands w rec (x :: (xs ++ [c]))
    rw [evalCommands, evalCommands, ih]

theorem cmds_all {l : List Command} (h : Cmds l) : ∀ c ∈ l, Cmd c := by
  induction l with
  | nil => nofun
  | cons x xs ih =>
    cases h with
    | one h => intro c hc; rw [List.mem_singleton.1 hc]; exact h
    | more h h' =>
      intro c hc
      rcases List.mem_cons.1 hc with rfl | hc
      · exact h
      · exact ih h' c hc

theorem cmds_of {l : List Command} (hne : l ≠ []) (h : ∀ c ∈ l, Cmd c) : Cmds l := by
  induction l with
  | nil => exact absurd rfl hne
  | cons x xs ih =>
    cases xs with
    | nil => exact .one (h x List.mem_cons_self)
    | cons y ys => exact .more (h x List.mem_cons_self) (ih (by simp) fun c hc => h c (List.mem_cons_of_mem _ hc))

theorem pipe_of_program {bang : Bool} {cs : List Command} {bg : Bool} (h : Program (pipeProgram bang cs bg)) :
    (∀ c ∈ cs, Cmd c) ∧ (bang = true → bg = false) := by
  cases h with
  | one h =>
    cases h with
    | one h =>
      cases h with
      | mk h hb => exact ⟨cmds_all h, hb⟩
  | more _ h => cases h

/-- C63 fails wherever a command that is not a process of its own is not the last of its pipeline: the commands after it
make no difference at all, for all pipelines of all programs. -/
theorem C63_ignored (w : World) (n : Nat) (bang bg : Bool) (xs ys : List Command) (c : Command) (hc : InShell c)
    (h : Program (pipeProgram bang (xs ++ c :: ys) bg)) :
    evalText w n (programText (pipeProgram bang (xs ++ c :: ys) bg)) =
      evalText w n (programText (pipeProgram bang (xs ++ [c]) bg)) := by
  have h' : Program (pipeProgram bang (xs ++ [c]) bg) := by
    obtain ⟨h1, h2⟩ := pipe_of_program h
    refine .one (.one (.mk (cmds_of (by simp) fun x hx => h1 x ?_) h2))
    rcases List.mem_append.1 hx with hx | hx
    · simp [hx]
    · simp [List.mem_singleton.1 hx]
  rw [evalText_program w _ h, evalText_program w _ h']
  cases n with
  | zero => rfl
  | succ n =>
    refine (evalListFrom_one _ _ (-1) _).trans (Eq.trans ?_ (evalListFrom_one _ _ (-1) _).symm)
    unfold evalAndOr evalPipeline
    simp only [Pipeline.seq, evalCommands_inShell w _ hc xs ys]
    rfl

/-- `a | pwd | a`, where the last command is not run. -/
example : Program (pipeProgram false ([wordCmd (cs!"a")] ++ wordCmd (cs!"pwd") :: [wordCmd (cs!"a")]) false) ∧
    InShell (wordCmd (cs!"pwd")) :=
  ⟨.one (.one (.mk (.more (wordCmd_cmd oneWord_a) (.more (wordCmd_cmd oneWord_pwd) (.one (wordCmd_cmd oneWord_a))))
    (by simp))), .builtin (by decide)⟩

/-! ## Functions -/

theorem definition_program {f : Str} (hf : OneWord f) {l : List AndOr} (hl : Program l) : Program (definition f l) :=
  .one (.one (.mk (.one (.func hf hl)) (by simp)))

theorem define_eval (w : World) (n : Nat) (s : Sh) (hg : Good s.ctx) {f : Str} (hf : OneWord f)
    {l : List AndOr} (hl : Program l) :
    evalText w (n + 1) (programText (definition f l)) s =
      (.ok 0, { s with masked := true, ctx := (s.ctx.addFunction f ⟨.braceGroup l, none⟩).1 }) := by
  have hp : Pipe (.mk false [.funcDef f (.mk (.braceGroup l) none)] false) := .mk (.one (.func hf hl)) (by simp)
  have hro : (s.ctx.addFunction f ⟨.braceGroup l, none⟩).2 = false := by
    unfold CtxMgr.addFunction
    have : ∀ i, ((s.ctx.heap i).addFunction f ⟨.braceGroup l, none⟩).2 = false := by
      intro i
      unfold Ctx.addFunction
      simp [hg.noRo i]
    split
    · exact this _
    · split
      · exact this _
      · rfl
  rw [definition, pipeProgram, evalText_pipe1 w n hp]
  unfold evalPipeline Pipeline.seq evalCommands evalCommand addFunctionM interruptsOff
  simp only [bind_assoc, run_modS_bind, run_getS_bind, setCtxMgr, hro]
  rfl

theorem define_line (w : World) (n : Nat) (s : Sh) (hg : Good s.ctx) {f : Str} (hf : OneWord f)
    {l : List AndOr} (hl : Program l) :
    interactiveLine w (n + 1) (programText (definition f l)) s =
      (.ok (), { s with masked := true, ctx := (s.ctx.addFunction f ⟨.braceGroup l, none⟩).1 }) := by
  rw [interactiveLine_program w _ (definition_program hf hl), run_bind_ok (run_tryE_ok (define_eval w n s hg hf hl))]
  rfl

/-- C123: defining a function, whatever its body, does nothing but giving it the body: no command is run and nothing is
printed, nothing is read and no other function and no variable changes. -/
theorem C123_define (w : World) (n : Nat) (s : Sh) (hg : Good s.ctx) (f : Str) (hf : OneWord f) (hu : Unqualified f)
    (l : List AndOr) (hl : Program l) :
    ∃ m, interactiveLine w (n + 1) (programText (definition f l)) s = (.ok (), { s with masked := true, ctx := m }) ∧
      m.getFunction f = some ⟨.braceGroup l, none⟩ ∧
      (∀ g, Unqualified g → g ≠ f → m.getFunction g = s.ctx.getFunction g) ∧
      (∀ i y, varIn m y i = varIn s.ctx y i) ∧ m.stack = s.ctx.stack ∧ m.exported = s.ctx.exported := by
  obtain ⟨t, pre, post, -, -, -, h1, -, -, h2, h3, h4, h5⟩ :=
    C42_define s.ctx f ⟨.braceGroup l, none⟩ hu hg.nonempty hg.noRo
  exact ⟨_, define_line w n s hg hf hl, h1, h2, h3, h4, h5⟩

/-- C123: a call of a function does what its body does as a program, in a new context in which `$0`, `$1`, … are the words
of the call and all else is as before.  Unless the body ends the shell, the context is then dropped, the status is 0
and a job number is used up. -/
theorem C123_call (w : World) (n : Nat) (s : Sh) (c : Call) (l : List AndOr) (hl : Program l) (h : FunCall c s l)
    (hb : Bindables c s) (hg : Good s.ctx) (hf : s.forked = false) :
    ∃ s1, Entered c s s1 ∧
      (∀ y, Unqualified y → (∀ i, i ≤ c.values.length → y ≠ natStr i) → valueOf s1 y = valueOf s y) ∧
      (∀ g, s1.ctx.getFunction g = s.ctx.getFunction g) ∧
      ∀ o s2, evalText w n (programText l) s1 = (o, s2) →
        (Continues o → ∃ jc, evalText w (n + 1) c.text s =
            (.ok 0, { s2 with masked := false, exitStatus := 0, ctx := { s2.ctx with stack := s2.ctx.stack.tail }, jc := jc }) ∧
          jc.nextId = s2.jc.nextId + 1 ∧
          ∀ i, i ≠ s2.jc.nextId → jc.table.lookup i = s2.jc.table.lookup i) ∧
        (¬ Continues o → evalText w (n + 1) c.text s = (o, s2)) := by
  obtain ⟨io, hfun⟩ := h.function
  obtain ⟨m1, hrun, hgood, hst, hpar, hvar, hfn, -, -⟩ :=
    call_entry (evalFuel w n) (Call.simple c) { s with masked := true } l io hg hfun hb.plain hb.free
  refine ⟨{ s with masked := true, ctx := m1 }, ⟨rfl, hst, fun i a hi => ?_⟩, ?_, hfn, ?_⟩
  · show (m1.getVar _).map Var.value = some a
    rw [hpar i a hi]
    rfl
  · intro y hy hi
    show (m1.getVar _).map Var.value = (s.ctx.getVar _).map Var.value
    rw [hvar y hy hi]
  · intro o s2 h2
    rw [evalText_program w n hl] at h2
    refine ⟨fun ho => ?_, fun ho => ?_⟩
    · have hstk : ∃ k, s2.ctx.stack = k ++ (s.ctx.next :: s.ctx.stack) := by
        rcases ho with ⟨st, rfl⟩ | ⟨e, rfl⟩
        · obtain ⟨-, -, k, hk, -⟩ := (evalFuel_stacked w n l).ok h2 hgood
          exact ⟨k, by rw [hk]; exact congrArg _ hst⟩
        · obtain ⟨-, -, k, hk, -⟩ := (evalFuel_stacked w n l).err h2 hgood
          exact ⟨k, by rw [hk]; exact congrArg _ hst⟩
      obtain ⟨k, hk⟩ := hstk
      have hfk : s2.forked = false := by
        rcases ho with ⟨st, rfl⟩ | ⟨e, rfl⟩
        · have := ((Static.frame (p := False) w (fun h => h.elim)).evalFuel (fun _ => trivial) n l).ok h2
          rw [this.forked]
          exact hf
        · have := ((Static.frame (p := False) w (fun h => h.elim)).evalFuel (fun _ => trivial) n l).err h2
          rw [this.forked]
          exact hf
      obtain ⟨id, hpop⟩ : ∃ id, s2.ctx.pop = some (id, { s2.ctx with stack := s2.ctx.stack.tail }) := by
        unfold CtxMgr.pop
        rw [hk]
        rcases hs : s.ctx.stack with _ | ⟨b, rest⟩
        · exact absurd hs hg.nonempty
        · rcases k with _ | ⟨k1, _ | ⟨k2, k3⟩⟩ <;> exact ⟨_, rfl⟩
      have htry : ∃ r, tryE (evalFuel w n l) { s with masked := true, ctx := m1 } = (.ok r, s2) := by
        rcases ho with ⟨st, rfl⟩ | ⟨e, rfl⟩
        · exact ⟨_, run_tryE_ok h2⟩
        · exact ⟨_, run_tryE_err h2⟩
      obtain ⟨r, htry⟩ := htry
      have hcall : callFunction (evalFuel w n) (Call.simple c) { s with masked := true } =
          (.ok (), { s2 with ctx := { s2.ctx with stack := s2.ctx.stack.tail } }) := by
        unfold callFunction
        have : evalFunction (evalFuel w n) (Call.simple c) { s with masked := true } =
            (.ok (), { s2 with ctx := { s2.ctx with stack := s2.ctx.stack.tail } }) := by
          rw [hrun, run_bind_ok htry]
          unfold popContext
          simp only [bind_assoc, run_getS_bind, hpop, unwrapM_some, run_pure_bind]
          rfl
        rw [run_bind_ok (run_tryE_ok this)]
        rfl
      rw [FunCall.line w n h, run_bind_ok hcall]
      unfold afterCall
      rw [run_getS_bind, if_neg (by simp [hfk])]
      have hdel : ∀ jc : JobControl, (jc.createJob [] false).2.deleteJob (jc.createJob [] false).1 =
          { (jc.createJob [] false).2 with table := tRemove jc.nextId (jc.createJob [] false).2.table } := by
        intro jc
        have : tGet jc.nextId (jc.createJob [] false).2.table =
            some { processes := [], jobId := jc.nextId, stopStatus := .stillAlive, state := .running, background := false } := by
          simp [JobControl.createJob, tGet_tInsert]
        unfold JobControl.deleteJob
        simp only [show (jc.createJob [] false).1 = jc.nextId from rfl, this, List.length_nil, if_true]
      refine ⟨(s2.jc.createJob [] false).2.deleteJob (s2.jc.createJob [] false).1, rfl, ?_, ?_⟩
      · rw [hdel]
        rfl
      · intro i hi
        rw [hdel]
        show tGet i _ = tGet i _
        rw [tGet_tRemove, if_neg hi]
        show tGet i (tInsert s2.jc.nextId _ _) = _
        rw [tGet_tInsert, if_neg hi]
    · rw [FunCall.line w n h]
      unfold callFunction
      rw [run_bind, run_bind, run_tryE, hrun, run_bind, run_tryE, h2]
      cases o with
      | ok st => exact absurd (.inl ⟨_, rfl⟩) ho
      | err e => exact absurd (.inr ⟨_, rfl⟩) ho
      | _ => rfl

/-- The hypotheses of `C123_call` are met after a definition. -/
example : let s := demo [cs!"f() { pwd; }"]
    let l : List AndOr := [.mk none none (.mk false [wordCmd (cs!"pwd")] false)]
    Program l ∧ FunCall ⟨cs!"f", [word (cs!"x")]⟩ s l ∧ Bindables ⟨cs!"f", [word (cs!"x")]⟩ s ∧ Good s.ctx ∧
    s.forked = false := by
  refine ⟨.one (.one (wordCmd_pipe oneWord_pwd)), ⟨by decide, by decide, by decide +kernel, by decide, ?_, by decide,
    none, rfl⟩, ⟨?_, ?_⟩, demo_good _ _ _ rfl, by decide +kernel⟩
  · intro a ha
    simp only [List.mem_singleton] at ha
    subst ha
    exact means_word (by decide)
  · intro i a h
    have hi : i = 0 ∧ a = cs!"f" ∨ i = 1 ∧ a = cs!"x" := by
      rcases i with _ | _ | i
      · exact .inl ⟨rfl, by simpa using h.symm⟩
      · exact .inr ⟨rfl, by simpa [Call.values, word] using h.symm⟩
      · simp [Call.values, word] at h
    have key : ∀ (i : Nat) (c : Char), i < 2 → c = 'f' ∨ c = 'x' → PlainArg i [c] := by
      intro i c hi hc
      refine ⟨?_, ?_, ?_, ?_, ?_⟩
      · rcases hc with rfl | rfl <;> decide
      · rcases hc with rfl | rfl <;> decide
      · intro q hq t e
        have := congrArg List.length e
        simp at this
      · rcases hc with rfl | rfl <;> unfold LoneQuote <;> decide
      · rcases (show i = 0 ∨ i = 1 by omega) with rfl | rfl <;> rcases hc with rfl | rfl <;> decide
    rcases hi with ⟨rfl, rfl⟩ | ⟨rfl, rfl⟩
    · exact key 0 'f' (by omega) (.inl rfl)
    · exact key 1 'x' (by omega) (.inr rfl)
  · intro i hi b hb
    have : ∀ i, i ≤ 1 → ((demo [cs!"f() { pwd; }"]).ctx.getVar (natStr i)).all (fun b => !b.readonly) = true := by
      decide +kernel
    have := this i hi
    rw [hb] at this
    simpa using this

/-! ## Groups -/

/-- C124 fails, always: a group is not evaluated; whatever is in it, it is reported as not implemented and nothing is
done, nor is what follows in the list. -/
theorem C124_refused (w : World) (n : Nat) (s : Sh) (bang bg : Bool) (l : List AndOr) (cs : List Command) (rest : List AndOr)
    (h : Program (pipeProgram bang (group l :: cs) bg ++ rest)) :
    interactiveLine w (n + 1) (programText (pipeProgram bang (group l :: cs) bg ++ rest)) s =
      printlnM (cs!"Not implemented") { s with masked := true } := by
  have he : evalText w (n + 1) (programText (pipeProgram bang (group l :: cs) bg ++ rest)) s =
      (.err (cs!"Not implemented"), { s with masked := true }) := by
    rw [evalText_program w _ h]
    rfl
  rw [interactiveLine_program w _ h, run_bind_ok (run_tryE_err he)]

example : Program (pipeProgram false (group [.mk none none (.mk false [wordCmd (cs!"a")] false)] :: []) false ++ []) :=
  .one (.one (.mk (.one (.group (.one (.one (wordCmd_pipe oneWord_a))))) (by simp)))

/-- C124 fails: no command of the group is run, nor what is joined to it. -/
theorem C124_counterexample :
    started (demo [cs!"{ a; b; }", cs!"c"] [.st (.exited 100 0)]).trace = [[cs!"c"]] ∧
    started (demo [cs!"a | { b; }", cs!"c"] [.st (.exited 100 0)]).trace = [[cs!"c"]] ∧
    started (demo [cs!"{ a; } || b ; c"] [.st (.exited 100 0)]).trace = [] := by
  decide +kernel

end Rsh
