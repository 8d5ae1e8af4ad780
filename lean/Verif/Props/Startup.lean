import Verif.Spec.Startup
import Verif.Spec.Prompt
import Verif.Spec.External
import Verif.Spec.Calls
import Verif.Proofs.Later
import Verif.Proofs.Calls
import Verif.Props.Scopes

/-!
# Properties C82, C83: starting the shell, and scripts
-/

namespace Rsh

open Spec

/-! ## Evaluation does not change how the shell was started -/

/-- The script name and whether the shell is interactive are the same. -/
structure Mode (s s' : Sh) : Prop where
  interactive : s'.interactive = s.interactive
  scriptName : s'.scriptName = s.scriptName

namespace Mode

theorem seq : Seq Mode (fun _ _ => True) where
  refl _ := ⟨rfl, rfl⟩
  trans h1 h2 := ⟨h2.1.trans h1.1, h2.2.trans h1.2⟩
  rq _ := trivial
  rqq _ _ := trivial

theorem frame (w : World) : Frame w (fun _ => True) Mode (fun _ _ => True) where
  toSeq := seq
  trace _ _ _ := ⟨rfl, rfl⟩
  masked _ _ := ⟨rfl, rfl⟩
  handlers _ := ⟨rfl, rfl⟩
  createJob _ _ _ _ := ⟨rfl, rfl⟩
  deleteJob _ _ := ⟨rfl, rfl⟩
  resumeJob _ _ _ := ⟨rfl, rfl⟩
  scan _ _ _ _ _ := ⟨rfl, rfl⟩
  waited _ _ _ _ := ⟨rfl, rfl⟩
  gotSigchld _ _ := ⟨rfl, rfl⟩
  exitStatus _ _ := ⟨rfl, rfl⟩
  subst rec x _ := fun s => by
    have h := evalSubshell_expands w rec x s
    rcases hr : evalSubshell w rec x s with ⟨o, s'⟩
    rw [hr] at h
    cases o with
    | ok a => obtain ⟨np, tr, rfl⟩ := h; exact ⟨rfl, rfl⟩
    | err a => obtain ⟨np, tr, rfl⟩ := h; exact ⟨rfl, rfl⟩
    | _ => trivial
  fork rec b id procs _ := fork_of seq (w := w) (rec := rec) (fun _ _ _ => ⟨rfl, rfl⟩)
    (fun _ _ _ => ⟨rfl, rfl⟩) (fun _ _ _ _ _ _ _ => ⟨rfl, rfl⟩) b id procs.length procs 0 (-1, -1) (-1)
  setEnv _ _ _ := ⟨rfl, rfl⟩
  aliases _ _ := ⟨rfl, rfl⟩
  cwd _ _ _ _ := ⟨rfl, rfl⟩
  addVar _ _ _ _ := ⟨rfl, rfl⟩
  addVarPos _ _ _ _ _ := ⟨rfl, rfl⟩
  addFunction _ _ _ := ⟨rfl, rfl⟩
  removeVar _ _ := ⟨rfl, rfl⟩
  removeFunction _ _ := ⟨rfl, rfl⟩
  removeContext _ _ := ⟨rfl, rfl⟩
  addVarReadonly _ _ _ _ := ⟨rfl, rfl⟩
  setVarReadonly _ _ _ _ := ⟨rfl, rfl⟩
  envVar _ _ _ _ _ _ := ⟨rfl, rfl⟩
  envFun _ _ _ _ _ := ⟨rfl, rfl⟩
  nameSelf _ _ _ _ := ⟨rfl, rfl⟩
  func _ c h := func_of seq (fun _ _ => ⟨rfl, rfl⟩) h.2 c
  ctxFile _ file ns h := ctxFile_of seq (fun _ _ => ⟨rfl, rfl⟩) (fun _ _ _ => ⟨rfl, rfl⟩) h.2 file ns

theorem startFiles (w : World) (n : Nat) : Keeps Mode (fun _ _ => True) (Spec.startFiles w n) :=
  .bind seq ((frame w).readStartup (fun _ => trivial) n _) fun _ => (frame w).readStartup (fun _ => trivial) n _

end Mode

/-! ## C82 -/

theorem linesIncl_eq {t : Str} {ls : List Str} (h : LinesOf t ls) : linesIncl t = ls := by
  have key : ∀ (l t : Str), '\n' ∉ l → linesIncl (l ++ '\n' :: t) = (l ++ ['\n']) :: linesIncl t := by
    intro l t hl
    induction l with
    | nil => rfl
    | cons c l ih =>
      simp only [List.mem_cons, not_or] at hl
      rw [List.cons_append, linesIncl, if_neg (fun e => hl.1 e.symm), ih hl.2]
      rfl
  induction h with
  | nil => rfl
  | @last l hne hl =>
    induction l with
    | nil => exact absurd rfl hne
    | cons c l ih =>
      simp only [List.mem_cons, not_or] at hl
      rw [linesIncl, if_neg (fun e => hl.1 e.symm)]
      cases l with
      | nil => rfl
      | cons d l => rw [ih (by simp) hl.2]
  | @cons l t ls hl _ ih => rw [key l t hl, ih]

theorem scriptLine_parsed {w : World} {n : Nat} {l : Str} (h : parse l ≠ none) : scriptLine w n l = evalAny w n l := by
  unfold scriptLine evalAny evalText
  cases hp : parse l with
  | none => exact absurd hp h
  | some cc => rfl

theorem scriptLine_empty (w : World) (n : Nat) (s : Sh) : scriptLine w n [] s = (.ok (), s) := rfl

theorem scriptLines_append {w : World} {n k : Nat} {pre post : List Str} (h : ∀ l ∈ pre, parse l ≠ none) :
    scriptLines w n k (pre ++ post) = (do evalLines w n pre; scriptLines w n k post) := by
  induction pre with
  | nil => rfl
  | cons l pre ih =>
    rw [List.cons_append, scriptLines, evalLines, scriptLine_parsed (h l List.mem_cons_self),
      ih fun l hl => h l (List.mem_cons_of_mem _ hl), bind_assoc]

theorem scriptEof_hang (w : World) (n k : Nat) (s : Sh) : scriptEof w n k s = (.hang, s) := by
  induction k with
  | zero => rfl
  | succ k ih => rw [scriptEof, run_bind_ok (scriptLine_empty w n s), ih]

/-- C82 fails for every script: if all lines parse and evaluating them leaves the shell in `s1`, then the
shell does not end there.  It reads further, empty, lines, each of which it evaluates to nothing, and after
any number `k` of them it is still running. -/
theorem C82_never (w : World) (n : Nat) (s s1 : Sh) (name t : Str) (ls : List Str)
    (hf : w.readFile s.trace name = .text t) (hl : LinesOf t ls) (hp : ∀ l ∈ ls, parse l ≠ none)
    (hr : evalLines w n ls { s with trace := .readFile name :: s.trace } = (.ok (), s1)) :
    (∀ k, scriptLoop w n k name s = (.hang, s1)) ∧ scriptLine w n [] s1 = (.ok (), s1) := by
  refine ⟨fun k => ?_, scriptLine_empty w n s1⟩
  unfold scriptLoop readFileM emit
  simp only [bind_assoc, run_getS_bind, run_modS_bind, run_pure_bind, hf]
  rw [linesIncl_eq hl]
  have := scriptLines_append (w := w) (n := n) (k := k) (pre := ls) (post := []) hp
  rw [List.append_nil] at this
  rw [this, run_bind_ok hr]
  exact scriptEof_hang w n k s1

/-- C82, the part that holds: a script ends where a line ends the shell, with the status that line gives;
the lines after it are not looked at.  Missing: all other scripts, by `C82_never`. -/
theorem C82_exit_partial (w : World) (n k : Nat) (s s1 s2 : Sh) (name t l : Str) (pre post : List Str) (code : Int)
    (hf : w.readFile s.trace name = .text t) (hl : LinesOf t (pre ++ l :: post))
    (hp : ∀ l ∈ pre, parse l ≠ none)
    (hr : evalLines w n pre { s with trace := .readFile name :: s.trace } = (.ok (), s1))
    (he : evalText w n l s1 = (.exit code, s2)) :
    scriptLoop w n k name s = (.exit code, s2) := by
  unfold scriptLoop readFileM emit
  simp only [bind_assoc, run_getS_bind, run_modS_bind, run_pure_bind, hf]
  rw [linesIncl_eq hl, scriptLines_append hp, run_bind_ok hr, scriptLines]
  have hpl : parse l ≠ none := by
    intro e
    unfold evalText at he
    rw [e] at he
    cases (Prod.mk.inj he).1
  rw [scriptLine_parsed hpl]
  unfold evalAny
  rw [bind_assoc, run_bind, run_tryE, he]

/-- The script `pwd`, `exit 3`, `ls`, started as `rsh s`. -/
example : outcome (mainM (demoWorld [(cs!"s", cs!"pwd\nexit 3\nls\n")]) 10 7 [cs!"rsh", cs!"s"] []
      (initSh false 1 2 (cs!"/") [(cs!"PATH", cs!"/bin")] [])).1 = .exit 3 ∧
    outcome (mainM (demoWorld [(cs!"s", cs!"pwd\nls\n")]) 10 7 [cs!"rsh", cs!"s"] []
      (initSh false 1 2 (cs!"/") [(cs!"PATH", cs!"/bin")] [.st (.exited 100 0)])).1 = .hang := by decide +kernel

example : LinesOf (cs!"pwd\nexit 3\nls") [cs!"pwd\n", cs!"exit 3\n", cs!"ls"] :=
  .cons (l := cs!"pwd") (by decide) (.cons (l := cs!"exit 3") (by decide) (.last (by decide) (by decide)))

/-! ## C83 -/

/-- Only output, of the shell about its arguments, was added. -/
structure Announced (s s' : Sh) : Prop where
  trace : ∃ l, (∀ e ∈ l, Quiet e) ∧ s'.trace = l ++ s.trace
  rest : s' = { s with trace := s'.trace, scriptName := s'.scriptName, interactive := s'.interactive, ctx := s'.ctx }

theorem Announced.refl (s : Sh) : Announced s s := ⟨⟨[], by simp, rfl⟩, rfl⟩

theorem Announced.trans {s1 s2 s3 : Sh} (h1 : Announced s1 s2) (h2 : Announced s2 s3) : Announced s1 s3 := by
  obtain ⟨⟨l1, a1, a2⟩, a3⟩ := h1
  obtain ⟨⟨l2, b1, b2⟩, b3⟩ := h2
  refine ⟨⟨l2 ++ l1, ?_, by rw [b2, a2, List.append_assoc]⟩, ?_⟩
  · intro e he
    rcases List.mem_append.1 he with he | he
    · exact b1 e he
    · exact a1 e he
  · rw [b3, a3]

theorem joinSp_eq (ws : List Str) : joinSp ws = List.intercalate [' '] ws := by
  induction ws with
  | nil => rfl
  | cons a ws ih =>
    cases ws with
    | nil => simp [joinSp, List.intercalate]
    | cons b ws =>
      rw [joinSp, ih]
      simp [List.intercalate, List.intersperse]
      simp

/-- The shell has printed an argument. -/
def saidArg (a : Str) (s : Sh) : Sh :=
  { s with trace := .print ((s.fds.get 1).map FdE.chan) (cs!"arg: " ++ a ++ ['\n']) :: s.trace }

theorem announced_said (a : Str) (s : Sh) : Announced s (saidArg a s) :=
  ⟨⟨[_], by simp [Quiet], rfl⟩, rfl⟩

theorem parseDashArg_eq (t : Str) : parseDashArg ('-' :: t) = decide ('c' ∈ '-' :: t) := by
  rw [Bool.eq_iff_iff]
  simp [parseDashArg]

/-- The loop up to the argument that decides. -/
theorem argLoop_first (rest : List Str) : ∀ (st : ArgState) (s : Sh), st.nonInteractive = false →
    st.loadArgs = false → st.readFromArgs = false → st.index = 1 → st.pos ≠ 0 →
    match invocation rest with
    | .interactive => ∃ st' s', argLoop rest st s = (.ok st', s') ∧ st'.readFromArgs = false ∧ Announced s s' ∧
        s'.ctx = s.ctx ∧ s'.interactive = s.interactive ∧ s'.scriptName = s.scriptName
    | .program t => ∃ st' s' k, argLoop rest st s = (.ok st', s') ∧ st'.readFromArgs = true ∧ Announced s s' ∧
        s'.ctx = s.ctx ∧ s'.interactive = s.interactive ∧ s'.scriptName = s.scriptName ∧
        st'.pos = st.pos + k ∧ t = List.intercalate [' '] (rest.drop (k + 1))
    | .script name ps => name ≠ [] → ∃ st' s', argLoop rest st s = argLoop ps st' s' ∧ st'.readFromArgs = false ∧
        st'.nonInteractive = true ∧ st'.loadArgs = true ∧ st'.index = 1 ∧ Announced s s' ∧ s'.ctx = s.ctx ∧
        s'.interactive = false ∧ s'.scriptName = name := by
  induction rest with
  | nil => intro st s _ _ h _ _; exact ⟨st, s, rfl, h, .refl s, rfl, rfl, rfl⟩
  | cons a rest ih =>
    intro st s h1 h2 h3 h4 h5
    have hsay : ∀ (f : Unit → M ArgState), (printlnM (cs!"arg: " ++ a) >>= f) s = f () (saidArg a s) := fun f => rfl
    unfold invocation
    by_cases ho : IsOption a
    · obtain ⟨t, rfl⟩ := ho
      rw [if_pos ⟨t, rfl⟩]
      by_cases hc : 'c' ∈ '-' :: t
      · rw [if_pos hc]
        refine ⟨{ st with readFromArgs := true }, saidArg ('-' :: t) s, 0, ?_, rfl, announced_said _ s, rfl, rfl, rfl, rfl, rfl⟩
        rw [argLoop, hsay]
        simp only [h1, and_self, if_true, parseDashArg_eq, hc, decide_true]
        rfl
      · rw [if_neg hc]
        have hrun : argLoop (('-' :: t) :: rest) st s =
            argLoop rest { st with readFromArgs := false, pos := st.pos + 1 } (saidArg ('-' :: t) s) := by
          rw [argLoop, hsay]
          simp only [h1, and_self, if_true, parseDashArg_eq, hc, decide_false, Bool.false_eq_true, if_false]
        have := ih { st with readFromArgs := false, pos := st.pos + 1 } (saidArg ('-' :: t) s) h1 h2 rfl h4 (by simp)
        have hA := announced_said ('-' :: t) s
        rw [hrun]
        cases hi : invocation rest with
        | interactive =>
          rw [hi] at this
          obtain ⟨st', s', e, g1, g2, g3, g4, g5⟩ := this
          exact ⟨st', s', e, g1, hA.trans g2, g3, g4, g5⟩
        | program t' =>
          rw [hi] at this
          obtain ⟨st', s', k, e, g1, g2, g3, g4, g5, g6, g7⟩ := this
          exact ⟨st', s', k + 1, e, g1, hA.trans g2, g3, g4, g5, by rw [g6]; show st.pos + 1 + k = _; omega,
            by rw [g7]; rfl⟩
        | script name ps =>
          rw [hi] at this
          intro hne
          obtain ⟨st', s', e, g1, g2, g3, g4, g5, g6⟩ := this hne
          exact ⟨st', s', e, g1, g2, g3, g4, hA.trans g5, g6⟩
    · rw [if_neg ho]
      intro hne
      cases a with
      | nil => exact absurd rfl hne
      | cons ch a =>
        have hch : ch ≠ '-' := fun e => ho ⟨a, by rw [e]⟩
        refine ⟨{ st with nonInteractive := true, loadArgs := true, pos := st.pos + 1 },
          { saidArg (ch :: a) s with scriptName := ch :: a, interactive := false }, ?_, h3, rfl, rfl, h4, ?_, rfl, rfl, rfl⟩
        · rw [argLoop, hsay]
          simp only [hch, h1, h2, false_and, Bool.false_eq_true, if_false, h5, ne_eq, not_false_eq_true, if_true,
            false_and]
          rfl
        · exact ⟨⟨[_], by simp [Quiet], rfl⟩, rfl⟩

/-- The loop over the parameters of a script. -/
theorem argLoop_params (ps : List Str) : ∀ (st : ArgState) (s : Sh) (id : Nat), st.nonInteractive = true →
    st.loadArgs = true → s.ctx.stack = [id] → (∀ p ∈ ps, p ≠ []) →
    (∀ i a, ps[i]? = some a → PlainArg (st.index + i) a) →
    ∃ st' s', argLoop ps st s = (.ok st', s') ∧ st'.readFromArgs = st.readFromArgs ∧ Announced s s' ∧
      s'.interactive = s.interactive ∧ s'.scriptName = s.scriptName ∧ s'.ctx.stack = [id] ∧ s'.ctx.next = s.ctx.next ∧
      (∀ i a, ps[i]? = some a → (s'.ctx.heap id).getVar (natStr (st.index + i)) = some { value := a }) ∧
      (∀ x, (∀ i, i < ps.length → x ≠ natStr (st.index + i)) → (s'.ctx.heap id).getVar x = (s.ctx.heap id).getVar x) ∧
      (s'.ctx.heap id).funcs = (s.ctx.heap id).funcs := by
  induction ps with
  | nil =>
    intro st s id h1 h2 h3 _ _
    exact ⟨st, s, rfl, rfl, .refl s, rfl, rfl, h3, rfl, by simp, fun _ _ => rfl, rfl⟩
  | cons a ps ih =>
    intro st s id h1 h2 h3 h4 h5
    cases ha : a with
    | nil => exact absurd ha (h4 a List.mem_cons_self)
    | cons ch a' =>
      rw [← ha]
      have hsay : ∀ (f : Unit → M ArgState), (printlnM (cs!"arg: " ++ a) >>= f) s = f () (saidArg a s) := fun f => rfl
      have hpa := h5 0 a rfl
      have hpos : (saidArg a s).ctx.atPos 0 = some id := by
        show s.ctx.atPos 0 = _
        unfold CtxMgr.atPos
        rw [h3]; rfl
      have hset : ((saidArg a s).ctx.heap id).addSet (natStr st.index ++ '=' :: a) =
          some (((saidArg a s).ctx.heap id).addVarStruct (natStr st.index) { value := a }) :=
        CtxMgr.addSet_eq (natStr_no_eq _) (by
          apply keyOk_natStr_few
          rw [List.filter_cons_of_neg (by decide)]; exact hpa.digits) hpa.noEq (.inr ⟨hpa.noQuotes, rfl⟩) hpa.notLone
      let m := (saidArg a s).ctx.setCtx id (((saidArg a s).ctx.heap id).addVarStruct (natStr st.index) { value := a })
      let s2 : Sh := { saidArg a s with ctx := m }
      have hin : setInputArgs a st.index (saidArg a s) = (.ok (), s2) := by
        unfold setInputArgs addVarAt CtxMgr.addVarPos
        rw [run_getS_bind, hpos]
        simp only [Option.bind_some, hset, Option.map_some, unwrapM_some, run_pure_bind]
        rfl
      have hrun : argLoop (a :: ps) st s = argLoop ps { st with index := st.index + 1, pos := st.pos + 1 } s2 := by
        rw [argLoop.eq_def]
        simp only
        rw [hsay]
        cases ha
        simp only [h1, h2, Bool.true_eq_false, and_false, if_false, if_true]
        exact run_bind_ok hin _
      obtain ⟨st', s', e, g1, g2, g3, g4, g5, g6, g7, g8, g9⟩ := ih { st with index := st.index + 1, pos := st.pos + 1 } s2 id h1 h2 h3
        (fun p hp => h4 p (List.mem_cons_of_mem _ hp))
        (fun i b hb => by
          have := h5 (i + 1) b hb
          rwa [show st.index + (i + 1) = st.index + 1 + i by omega] at this)
      refine ⟨st', s', hrun.trans e, g1, Announced.trans ⟨⟨[_], by simp [Quiet], rfl⟩, rfl⟩ g2, g3, g4, g5, g6, ?_, ?_, ?_⟩
      · intro i b hb
        cases i with
        | zero =>
          simp only [List.getElem?_cons_zero, Option.some.injEq] at hb
          subst hb
          rw [Nat.add_zero, g8 _ (fun i _ h => by have := natStr_inj h; simp at this; omega)]
          show AMap.get (if id = id then _ else _ : Ctx).vars _ = _
          rw [if_pos rfl]
          exact (AMap.get_insert _ _ _ _).trans (if_pos rfl)
        | succ i =>
          have := g7 i b hb
          rwa [show (ArgState.index { st with index := st.index + 1, pos := st.pos + 1 }) + i = st.index + (i + 1) by
            show st.index + 1 + i = _; omega] at this
      · intro x hx
        rw [g8 x (fun i hi => by
          have := hx (i + 1) (by simpa using hi)
          rwa [show st.index + (i + 1) = (ArgState.index { st with index := st.index + 1, pos := st.pos + 1 }) + i by
            show _ = st.index + 1 + i; omega] at this)]
        show AMap.get (if id = id then _ else _ : Ctx).vars _ = _
        rw [if_pos rfl]
        exact (AMap.get_insert _ _ _ _).trans (if_neg (hx 0 (by simp)))
      · rw [g9]
        show (if id = id then _ else _ : Ctx).funcs = _
        rw [if_pos rfl]
        rfl

/-- The shell's own name does not matter. -/
theorem argLoop_self {argv0 : Str} (hne : argv0 ≠ []) (hopt : ¬ (IsOption argv0 ∧ 'c' ∈ argv0)) (rest : List Str) (s : Sh) :
    ∃ st, argLoop (argv0 :: rest) {} s = argLoop rest st (saidArg argv0 s) ∧ st.nonInteractive = false ∧
      st.loadArgs = false ∧ st.readFromArgs = false ∧ st.index = 1 ∧ st.pos = 1 := by
  refine ⟨{ pos := 1 }, ?_, rfl, rfl, rfl, rfl, rfl⟩
  have hsay : ∀ (f : Unit → M ArgState), (printlnM (cs!"arg: " ++ argv0) >>= f) s = f () (saidArg argv0 s) := fun f => rfl
  cases argv0 with
  | nil => exact absurd rfl hne
  | cons ch t =>
    rw [argLoop, hsay]
    by_cases h : ch = '-'
    · subst h
      have hc : 'c' ∉ '-' :: t := fun h => hopt ⟨⟨t, rfl⟩, h⟩
      simp only [and_self, if_true, parseDashArg_eq, hc, decide_false, Bool.false_eq_true, if_false]
    · simp only [h, false_and, Bool.false_eq_true, if_false, ne_eq, not_true_eq_false]

/-- C83, a program: with `-c` (alone or among other option letters), the words after the option joined by
blanks are evaluated, after the start-up files; the shell does not become interactive.  Missing in C83: see
below. -/
theorem C83_program_partial (w : World) (n k : Nat) (s : Sh) (argv0 : Str) (rest : List Str) (ins : List SessionIn)
    (hne : argv0 ≠ []) (hopt : ¬ (IsOption argv0 ∧ 'c' ∈ argv0)) (t : Str) (hi : invocation rest = .program t)
    (hp : parse t ≠ none) :
    ∃ s1, Announced s s1 ∧ s1.ctx = s.ctx ∧ s1.scriptName = s.scriptName ∧ s1.interactive = false ∧
      (∃ r c, parseArgs w (argv0 :: rest) s = (.ok r, { s1 with ctx := c })) ∧
      mainM w n k (argv0 :: rest) ins s =
        (do pushContextNew; setArg0; startFiles w n; evalAny w n t : M Unit) s1 := by
  obtain ⟨st, e, a1, a2, a3, a4, a5⟩ := argLoop_self hne hopt rest s
  have := argLoop_first rest st (saidArg argv0 s) a1 a2 a3 a4 (by rw [a5]; decide)
  rw [hi] at this
  obtain ⟨st', s', j, g1, g2, g3, g4, g5, g6, g7, g8⟩ := this
  refine ⟨{ s' with
      interactive := false
      trace := .print ((s'.fds.get 1).map FdE.chan) (w.argsMsg ((argv0 :: rest).drop (st'.pos + 1)) ++ ['\n']) :: s'.trace },
    ?_, g4, g6, rfl, ⟨some (joinSp ((argv0 :: rest).drop (st'.pos + 1))), s'.ctx, ?_⟩, ?_⟩
  · have h := (announced_said argv0 s).trans g3
    exact h.trans ⟨⟨[_], by simp [Quiet], rfl⟩, rfl⟩
  · unfold parseArgs
    have hlen : ¬ (argv0 :: rest).length = 1 := by
      cases rest with
      | nil => cases hi
      | cons a as => simp
    rw [if_neg hlen, run_bind_ok (e.trans g1)]
    simp only [g2, if_true, run_modS_bind]
    rfl
  · unfold mainM parseArgs
    have hlen : ¬ (argv0 :: rest).length = 1 := by
      cases rest with
      | nil => cases hi
      | cons a as => simp
    rw [if_neg hlen]
    simp only [bind_assoc]
    rw [run_bind_ok (e.trans g1)]
    simp only [g2, if_true, bind_assoc, run_modS_bind, pure_bind]
    have htext : joinSp ((argv0 :: rest).drop (st'.pos + 1)) = t := by
      rw [joinSp_eq, g8, g7, a5]
      congr 1
      rw [show 1 + j + 1 = (j + 1) + 1 by omega, List.drop_succ_cons]
    rw [htext]
    have hr : readFromArgs w n t = evalAny w n t := scriptLine_parsed hp
    rw [hr]
    unfold startFiles
    simp only [bind_assoc]
    rfl

/-- The contexts of a shell after the options: one for `$0` above one for the parameters. -/
structure Begun (s s1 : Sh) (name : Str) (ps : List Str) : Prop where
  stack : s1.ctx.stack = [1, 0]
  own : s1.ctx.heap 1 = ({} : Ctx).addVarStruct (cs!"0") { value := name }
  params : ∀ i a, ps[i]? = some a → varIn s1.ctx (natStr (i + 1)) 0 = some { value := a }
  others : ∀ x, (∀ i, i < ps.length → x ≠ natStr (i + 1)) → varIn s1.ctx x 0 = varIn s.ctx x 0
  funcs : (s1.ctx.heap 0).funcs = (s.ctx.heap 0).funcs
  good : Good s1.ctx

theorem arg0_set (w : World) (s2 : Sh) {name : Str} (h0 : PlainArg 0 name) (hn : s2.scriptName = name) (hstk : s2.ctx.stack = [0])
    (hnext : s2.ctx.next = 1) (hg : Good s2.ctx) :
    ∃ c2, (do pushContextNew; setArg0 : M Unit) s2 = (.ok (), { s2 with ctx := c2 }) ∧ c2.stack = [1, 0] ∧
      c2.heap 0 = s2.ctx.heap 0 ∧ c2.heap 1 = ({} : Ctx).addVarStruct (cs!"0") { value := name } ∧ Good c2 := by
  let c1 := s2.ctx.pushNew
  have hc1 : c1.stack = [1, 0] := by show s2.ctx.next :: s2.ctx.stack = _; rw [hnext, hstk]
  have hpos : c1.atPos 1 = some 1 := by unfold CtxMgr.atPos; rw [hc1]; rfl
  have hset : (c1.heap 1).addSet (cs!"0=" ++ name) = some ((c1.heap 1).addVarStruct (cs!"0") { value := name }) := by
    have := CtxMgr.addSet_eq (c := c1.heap 1) (x := natStr 0) (v := name) (u := name) (natStr_no_eq _) (by
      apply keyOk_natStr_few
      rw [List.filter_cons_of_neg (by decide)]; exact h0.digits) h0.noEq (.inr ⟨h0.noQuotes, rfl⟩) h0.notLone
    exact this
  let c2 := c1.setCtx 1 ((c1.heap 1).addVarStruct (cs!"0") { value := name })
  have hrun : (do pushContextNew; setArg0 : M Unit) s2 = (.ok (), { s2 with ctx := c2 }) := by
    unfold pushContextNew setArg0 addVarAt CtxMgr.addVarPos
    rw [run_modS_bind, run_getS_bind, run_getS_bind]
    show (unwrapM .unwrap (Option.bind (c1.atPos 1) _) >>= _ : M Unit) _ = _
    rw [hpos]
    simp only [Option.bind_some, hn]
    show (unwrapM .unwrap (Option.map _ ((c1.heap 1).addSet _)) >>= _ : M Unit) _ = _
    rw [hset]
    rfl
  refine ⟨c2, hrun, hc1, ?_, ?_, ?_⟩
  · have h1 : c1.heap 0 = s2.ctx.heap 0 := by
      show (if 0 = s2.ctx.next then _ else s2.ctx.heap 0) = _
      rw [hnext]; rfl
    exact h1
  · have h1 : c1.heap 1 = {} := by
      show (if 1 = s2.ctx.next then _ else s2.ctx.heap 1) = _
      rw [hnext]; rfl
    show (if 1 = 1 then Ctx.addVarStruct (c1.heap 1) _ _ else c1.heap 1) = _
    rw [h1]; rfl
  · have hK : Keeps KeepsGood (fun _ _ => True) (do pushContextNew; setArg0 : M Unit) :=
      .bind KeepsGood.seq (.modS fun s g => good_pushNew g) fun _ =>
        .bind KeepsGood.seq (.getS KeepsGood.seq) fun _ => KeepsGood.addVarAt w _ _
    exact hK.ok hrun hg

theorem main_script (w : World) (n k : Nat) (root : Bool) (ppid pid : Nat) (cwd : Str) (env : AMap Str)
    (waits : List WRes) (argv0 : Str) (rest : List Str) (ins : List SessionIn) (hne : argv0 ≠ [])
    (hopt : ¬ (IsOption argv0 ∧ 'c' ∈ argv0)) (name : Str) (ps : List Str) (hi : invocation rest = .script name ps)
    (hname : name ≠ []) (h0 : PlainArg 0 name) (hps : ∀ p ∈ ps, p ≠ [])
    (hargs : ∀ i a, ps[i]? = some a → PlainArg (i + 1) a) :
    ∃ s1, Announced (initSh root ppid pid cwd env waits) s1 ∧ s1.interactive = false ∧ s1.scriptName = name ∧
      Begun (initSh root ppid pid cwd env waits) s1 name ps ∧
      (∃ r c, parseArgs w (argv0 :: rest) (initSh root ppid pid cwd env waits) = (.ok r, { s1 with ctx := c })) ∧
      mainM w n k (argv0 :: rest) ins (initSh root ppid pid cwd env waits) =
        (do startFiles w n; scriptLoop w n k name : M Unit) s1 := by
  let s := initSh root ppid pid cwd env waits
  obtain ⟨st, e, a1, a2, a3, a4, a5⟩ := argLoop_self hne hopt rest s
  have := argLoop_first rest st (saidArg argv0 s) a1 a2 a3 a4 (by rw [a5]; decide)
  rw [hi] at this
  obtain ⟨st', s', g1, g2, g3, g4, g5, g6, g7, g8, g9⟩ := this hname
  obtain ⟨st2, s2, b1, b2, b3, b4, b5, b6, b7, b8, b9, b10⟩ := argLoop_params ps st' s' 0 g3 g4 (by rw [g7]; rfl) hps
    (fun i a h => by rw [g5, Nat.add_comm]; exact hargs i a h)
  have hg2 : Good s2.ctx := (KeepsGood.argLoop w _ _).ok (e.trans (g1.trans b1)) (good_init ..)
  obtain ⟨c2, hrun, d1, d2, d3, d4⟩ := arg0_set w s2 h0 (b5.trans g9) b6 (by rw [b7, g7]; rfl) hg2
  refine ⟨{ s2 with ctx := c2 }, ?_, b4.trans g8, b5.trans g9, ⟨d1, d3, ?_, ?_, ?_, d4⟩, ⟨none, s2.ctx, ?_⟩, ?_⟩
  · have h := ((announced_said argv0 s).trans g6).trans b3
    refine ⟨h.trace, ?_⟩
    conv => lhs; rw [h.rest]
  · intro i a ha
    have := b8 i a ha
    rw [g5, Nat.add_comm] at this
    unfold varIn
    rw [d2]
    exact this
  · intro x hx
    unfold varIn
    rw [d2]
    refine (b9 x fun i hi => ?_).trans (by rw [g7]; rfl)
    rw [g5, Nat.add_comm]
    exact hx i hi
  · rw [d2, b10, g7]
    rfl
  · unfold parseArgs
    have hlen : ¬ (argv0 :: rest).length = 1 := by
      cases rest with
      | nil => cases hi
      | cons a as => simp
    rw [if_neg hlen, run_bind_ok (e.trans (g1.trans b1))]
    simp only [show st2.readFromArgs = false from b2.trans g2, Bool.false_eq_true, if_false]
    rfl
  · unfold mainM parseArgs
    have hlen : ¬ (argv0 :: rest).length = 1 := by
      cases rest with
      | nil => cases hi
      | cons a as => simp
    rw [if_neg hlen]
    simp only [bind_assoc]
    rw [run_bind_ok (e.trans (g1.trans b1))]
    simp only [show st2.readFromArgs = false from b2.trans g2, Bool.false_eq_true, if_false, pure_bind]
    have hsplit : ∀ (f : Unit → M Unit), (pushContextNew >>= fun _ => setArg0 >>= f) s2 = f () { s2 with ctx := c2 } := by
      intro f
      rw [← bind_assoc]
      exact run_bind_ok hrun f
    rw [hsplit]
    have hK := Mode.startFiles w n { s2 with ctx := c2 }
    have hassoc : ∀ f : Unit → M Unit, (readStartup w n (cs!"~/.rshrc") >>= fun _ =>
        readStartup w n (cs!"~/.profile") >>= f) = (startFiles w n >>= f) := by
      intro f
      unfold startFiles
      rw [bind_assoc]
    rw [hassoc, run_bind, run_bind]
    rcases hr : startFiles w n { s2 with ctx := c2 } with ⟨o, s3⟩
    rw [hr] at hK
    cases o with
    | ok a =>
      have hm : Mode { s2 with ctx := c2 } s3 := hK
      simp only [run_getS_bind]
      have h1 : s3.interactive = false := hm.interactive.trans (b4.trans g8)
      have h2 : s3.scriptName = name := hm.scriptName.trans (b5.trans g9)
      rw [h1, h2]
      rfl
    | _ => rfl

/-- C83, a script: the first argument that is no option is the script and `$0`; the arguments after it,
options or not, are `$1`, `$2`, ….  After the start-up files the lines of that file are evaluated.  Missing:
empty arguments and those the shell cannot bind (see the counterexamples). -/
theorem C83_script_partial (w : World) (n k : Nat) (root : Bool) (ppid pid : Nat) (cwd : Str) (env : AMap Str)
    (waits : List WRes) (argv0 : Str) (rest : List Str) (ins : List SessionIn) (hne : argv0 ≠ [])
    (hopt : ¬ (IsOption argv0 ∧ 'c' ∈ argv0)) (name : Str) (ps : List Str) (hi : invocation rest = .script name ps)
    (hname : name ≠ []) (h0 : PlainArg 0 name) (hps : ∀ p ∈ ps, p ≠ [])
    (hargs : ∀ i a, ps[i]? = some a → PlainArg (i + 1) a) :
    ∃ s1, Announced (initSh root ppid pid cwd env waits) s1 ∧ s1.interactive = false ∧ s1.scriptName = name ∧
      valueOf s1 (cs!"0") = some name ∧ (∀ i a, ps[i]? = some a → valueOf s1 (natStr (i + 1)) = some a) ∧
      mainM w n k (argv0 :: rest) ins (initSh root ppid pid cwd env waits) =
        (do startFiles w n; scriptLoop w n k name : M Unit) s1 := by
  obtain ⟨s1, a1, a2, a3, b, -, a4⟩ := main_script w n k root ppid pid cwd env waits argv0 rest ins hne hopt name ps hi hname h0
    hps hargs
  refine ⟨s1, a1, a2, a3, ?_, ?_, a4⟩
  · unfold valueOf
    rw [show cs!"0" = natStr 0 from rfl, CtxMgr.getVar_unqualified _ (natStr_unqualified 0), b.stack]
    unfold varIn
    simp only [List.findSome?_cons, b.own]
    rfl
  · intro i a ha
    unfold valueOf
    rw [CtxMgr.getVar_unqualified _ (natStr_unqualified _), b.stack]
    have hz : (({} : Ctx).addVarStruct (cs!"0") { value := name }).getVar (natStr (i + 1)) = none := by
      show AMap.get (AMap.insert [] _ _) _ = none
      rw [AMap.get_insert, if_neg]
      · rfl
      · intro h
        have h' : natStr (i + 1) = natStr 0 := h
        have := natStr_inj h'
        omega
    have h1 : varIn s1.ctx (natStr (i + 1)) 1 = none := by unfold varIn; rw [b.own]; exact hz
    simp [h1, b.params i a ha]

/-- C83, neither: with options without a `c` only, or without arguments, the shell is interactive. -/
theorem C83_interactive (w : World) (n k : Nat) (root : Bool) (ppid pid : Nat) (cwd : Str) (env : AMap Str)
    (waits : List WRes) (argv0 : Str) (rest : List Str) (ins : List SessionIn) (hne : argv0 ≠ [])
    (hopt : ¬ (IsOption argv0 ∧ 'c' ∈ argv0)) (hi : invocation rest = .interactive) :
    ∃ s1, Announced (initSh root ppid pid cwd env waits) s1 ∧ s1.ctx = (initSh root ppid pid cwd env waits).ctx ∧
      s1.interactive = true ∧ s1.scriptName = cs!"rsh" ∧
      (∃ r c, parseArgs w (argv0 :: rest) (initSh root ppid pid cwd env waits) = (.ok r, { s1 with ctx := c })) ∧
      mainM w n k (argv0 :: rest) ins (initSh root ppid pid cwd env waits) =
        (do pushContextNew; setArg0; startFiles w n; interact w n ins : M Unit) s1 := by
  let s := initSh root ppid pid cwd env waits
  have key : ∃ s1, Announced s s1 ∧ s1.ctx = s.ctx ∧ s1.interactive = true ∧ s1.scriptName = cs!"rsh" ∧
      parseArgs w (argv0 :: rest) s = (.ok none, s1) := by
    unfold parseArgs
    by_cases hlen : (argv0 :: rest).length = 1
    · rw [if_pos hlen]
      exact ⟨s, .refl s, rfl, rfl, rfl, rfl⟩
    · rw [if_neg hlen]
      obtain ⟨st, e, a1, a2, a3, a4, a5⟩ := argLoop_self hne hopt rest s
      have := argLoop_first rest st (saidArg argv0 s) a1 a2 a3 a4 (by rw [a5]; decide)
      rw [hi] at this
      obtain ⟨st', s', g1, g2, g3, g4, g5, g6⟩ := this
      refine ⟨s', (announced_said argv0 s).trans g3, g4, g5, g6, ?_⟩
      rw [run_bind_ok (e.trans g1)]
      simp only [g2, Bool.false_eq_true, if_false]
      rfl
  obtain ⟨s1, h1, h2, h3, h4, h5⟩ := key
  refine ⟨s1, h1, h2, h3, h4, ⟨none, s1.ctx, h5⟩, ?_⟩
  unfold mainM
  rw [run_bind_ok h5]
  have hassoc : ∀ f : Unit → M Unit, (readStartup w n (cs!"~/.rshrc") >>= fun _ =>
      readStartup w n (cs!"~/.profile") >>= f) = (startFiles w n >>= f) := by
    intro f
    unfold startFiles
    rw [bind_assoc]
  simp only [hassoc]
  have hK : Keeps Mode (fun _ _ => True) (do pushContextNew; setArg0; startFiles w n : M Unit) :=
    .bind Mode.seq (.modS fun _ => ⟨rfl, rfl⟩) fun _ => .bind Mode.seq (.bind Mode.seq (.getS Mode.seq) fun _ =>
      (Mode.frame w).addVarAt _ _) fun _ => Mode.startFiles w n
  have hassoc2 : ∀ f : Unit → M Unit, (pushContextNew >>= fun _ => setArg0 >>= fun _ => startFiles w n >>= f) =
      ((do pushContextNew; setArg0; startFiles w n : M Unit) >>= f) := by
    intro f
    simp only [bind_assoc]
  rw [hassoc2, hassoc2]
  generalize (do pushContextNew; setArg0; startFiles w n : M Unit) = m at hK
  rw [run_bind, run_bind]
  have hk := hK s1
  rcases hr : m s1 with ⟨o, s3⟩
  rw [hr] at hk
  cases o with
  | ok a =>
    have hm : Mode s1 s3 := hk
    simp only [run_getS_bind]
    rw [hm.interactive, h3]
    rfl
  | _ => rfl

/-- How a shell started with the given arguments ends. -/
def startedWith (args : List Str) (files : AMap Str) (waits : List WRes := []) : Outcome :=
  outcome (mainM (demoWorld files) 10 5 args [] (initSh false 1 2 (cs!"/") [(cs!"PATH", cs!"/bin")] waits)).1

/-- C83 fails: an empty argument, wherever it is, ends the shell with a panic, and so does a parameter of 20
digits. -/
theorem C83_counterexample :
    startedWith [cs!"rsh", cs!"s", cs!""] [(cs!"s", cs!"exit 0\n")] = .panic .unwrap ∧
    startedWith [cs!"rsh", cs!"s", cs!"12345678901234567890"] [(cs!"s", cs!"exit 0\n")] = .panic .unwrap ∧
    startedWith [cs!"rsh", cs!"s", cs!"x", cs!"-c", cs!"y"] [(cs!"s", cs!"exit 0\n")] = .exit 0 := by decide +kernel

example : invocation [cs!"-l", cs!"s", cs!"a", cs!"-c", cs!"b"] = .script (cs!"s") [cs!"a", cs!"-c", cs!"b"] ∧
    invocation [cs!"-l", cs!"-lc", cs!"exit", cs!"4"] = .program (cs!"exit 4") ∧
    startedWith [cs!"rsh", cs!"-l", cs!"-lc", cs!"exit", cs!"4"] [] = .exit 4 := by decide +kernel

/-- `rsh s -c x`. -/
example : ∃ s1, s1.scriptName = cs!"s" ∧ valueOf s1 (cs!"0") = some (cs!"s") ∧ valueOf s1 (natStr 1) = some (cs!"-c") ∧
    valueOf s1 (natStr 2) = some (cs!"x") ∧
    mainM (demoWorld []) 10 5 [cs!"rsh", cs!"s", cs!"-c", cs!"x"] [] (initSh false 1 2 (cs!"/") [] []) =
      (do startFiles (demoWorld []) 10; scriptLoop (demoWorld []) 10 5 (cs!"s") : M Unit) s1 := by
  have pa : ∀ i a, i < 3 → a = cs!"s" ∨ a = cs!"-c" ∨ a = cs!"x" → PlainArg i a := by
    rintro i a hi h
    have : (natStr i).length = 1 := by
      rcases i with _ | _ | _ | i <;> first | rfl | omega
    have hq : ∀ q ∈ quotes, q ∉ a := by rcases h with rfl | rfl | rfl <;> decide
    refine ⟨by rcases h with rfl | rfl | rfl <;> decide, by rcases h with rfl | rfl | rfl <;> decide,
      fun q h t e => hq q h (by rw [e]; simp), fun ⟨q, h, e⟩ => hq q h (by rw [e]; simp), ?_⟩
    rw [this]
    rcases h with rfl | rfl | rfl <;> decide
  obtain ⟨s1, -, -, h3, h4, h5, h6⟩ := C83_script_partial (demoWorld []) 10 5 false 1 2 (cs!"/") [] [] (cs!"rsh")
    [cs!"s", cs!"-c", cs!"x"] [] (by decide) (by decide) (cs!"s") [cs!"-c", cs!"x"] (by decide) (by decide)
    (pa 0 _ (by omega) (.inl rfl)) (by decide) (fun i a h => by
      rcases i with _ | _ | i
      · simp at h; exact pa 1 a (by omega) (.inr (.inl h.symm))
      · simp at h; exact pa 2 a (by omega) (.inr (.inr h.symm))
      · simp at h)
  exact ⟨s1, h3, h4, h5 0 _ rfl, h5 1 _ rfl, h6⟩

end Rsh
