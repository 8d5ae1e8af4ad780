import Verif.Proofs.Monad

/-!
# What evaluation preserves

`Keeps R Q m`: whenever `m` returns (normally or with an error) the states before and after are
related by `R`; when it ends in any other way they are related by `Q`.  `Frame w R Q` lists what has to
be checked of `R` and `Q` so that every evaluation keeps them.
-/

namespace Rsh

/-- The relation between a state and the result of a computation started in it. -/
def Post (R Q : Sh → Sh → Prop) (s : Sh) (r : Out α × Sh) : Prop :=
  match r.1 with
  | .ok _ => R s r.2
  | .err _ => R s r.2
  | _ => Q s r.2

/-- See above. -/
def Keeps (R Q : Sh → Sh → Prop) (m : M α) : Prop := ∀ s, Post R Q s (m s)

/-- The laws of `R` and `Q` used for sequencing. -/
structure Seq (R Q : Sh → Sh → Prop) : Prop where
  refl : ∀ s, R s s
  trans : ∀ {a b c}, R a b → R b c → R a c
  rq : ∀ {a b}, R a b → Q a b
  rqq : ∀ {a b c}, R a b → Q b c → Q a c

variable {R Q : Sh → Sh → Prop}

namespace Keeps

theorem ok {m : M α} (h : Keeps R Q m) {s s' : Sh} {a : α} (e : m s = (.ok a, s')) : R s s' := by
  have := h s; rw [e] at this; exact this

theorem err {m : M α} (h : Keeps R Q m) {s s' : Sh} {a : Str} (e : m s = (.err a, s')) : R s s' := by
  have := h s; rw [e] at this; exact this

theorem post_trans (S : Seq R Q) {s s1 : Sh} {r : Out α × Sh} (h : R s s1) (h1 : Post R Q s1 r) :
    Post R Q s r := by
  rcases r with ⟨o, s2⟩
  cases o
  · exact S.trans h h1
  · exact S.trans h h1
  all_goals exact S.rqq h h1

theorem bindAt (S : Seq R Q) {m : M α} {f : α → M β} {s : Sh} (hm : Post R Q s (m s))
    (hf : ∀ a s1, m s = (.ok a, s1) → Post R Q s1 (f a s1)) : Post R Q s ((m >>= f) s) := by
  rw [run_bind]
  rcases h : m s with ⟨o, s1⟩
  rw [h] at hm
  cases o with
  | ok a => exact post_trans S hm (hf a s1 h)
  | _ => exact hm

theorem bind (S : Seq R Q) {m : M α} {f : α → M β} (hm : Keeps R Q m) (hf : ∀ a, Keeps R Q (f a)) :
    Keeps R Q (m >>= f) := fun s => bindAt S (hm s) fun a s1 _ => hf a s1

theorem pure (S : Seq R Q) (a : α) : Keeps R Q (Pure.pure a : M α) := fun s => S.refl s
theorem getS (S : Seq R Q) : Keeps R Q Rsh.getS := fun s => S.refl s
theorem throwE (S : Seq R Q) (e : Str) : Keeps R Q (Rsh.throwE e : M α) := fun s => S.refl s
theorem panicM (S : Seq R Q) (k : PanicKind) : Keeps R Q (Rsh.panicM k : M α) := fun s => S.rq (S.refl s)
theorem exitM (S : Seq R Q) (c : Int) : Keeps R Q (Rsh.exitM c : M α) := fun s => S.rq (S.refl s)
theorem execM (S : Seq R Q) (i : ExecImage) : Keeps R Q (Rsh.execM i : M α) := fun s => S.rq (S.refl s)
theorem hangM (S : Seq R Q) : Keeps R Q (Rsh.hangM : M α) := fun s => S.rq (S.refl s)
theorem deepM (S : Seq R Q) : Keeps R Q (Rsh.deepM : M α) := fun s => S.rq (S.refl s)

theorem modS {f : Sh → Sh} (h : ∀ s, R s (f s)) : Keeps R Q (Rsh.modS f) := h

theorem unwrapM (S : Seq R Q) (k : PanicKind) (o : Option α) : Keeps R Q (Rsh.unwrapM k o) := by
  cases o with
  | none => exact panicM S k
  | some a => exact pure S a

theorem ite {c : Prop} [Decidable c] {a b : M α} (ha : Keeps R Q a) (hb : Keeps R Q b) :
    Keeps R Q (if c then a else b) := by split <;> assumption

theorem tryE {m : M α} (h : Keeps R Q m) : Keeps R Q (Rsh.tryE m) := by
  intro s
  rw [run_tryE]
  have h1 := h s
  rcases h : m s with ⟨o, s1⟩
  rw [h] at h1
  cases o <;> exact h1

theorem runChild (S : Seq R Q) (w : World) (m : M α) : Keeps R Q (Rsh.runChild w m) := by
  intro s
  unfold Rsh.runChild
  rcases m (childStart w s) with ⟨o, s1⟩
  simp only
  cases childEnd o s1 with
  | none => exact S.rq (S.refl s)
  | some e => exact S.refl s

end Keeps

/-- What is known of the nested evaluator `rec`: a property `P`, and that it keeps `R` and `Q`. -/
abbrev Evs (P : (List AndOr → M Int) → Prop) (R Q : Sh → Sh → Prop) (rec : List AndOr → M Int) : Prop :=
  P rec ∧ ∀ l, Keeps R Q (rec l)

/-- Every event but a change of directory, the opening of a file and the writing of the history. -/
def Common : Event → Bool
  | .chdir _ => false
  | .opened _ _ => false
  | .saveHistory _ => false
  | _ => true

/-- Nor the start of a process. -/
def Ordinary : Event → Bool
  | .spawn .. => false
  | .subst .. => false
  | .forkFailed => false
  | e => Common e

theorem Ordinary.common {e : Event} (h : Ordinary e = true) : Common e = true := by
  cases e <;> first | exact h | rfl

/-- What the expansion of a command does besides substitutions: events. -/
structure EFrame (R Q : Sh → Sh → Prop) : Prop extends Seq R Q where
  trace : ∀ s e, Ordinary e = true → R s { s with trace := e :: s.trace }

/-- The primitive steps of the builtins that start nothing, wait for nothing and block no signal. -/
structure BFrame (R Q : Sh → Sh → Prop) : Prop extends EFrame R Q where
  exitStatus : ∀ s c, R s { s with exitStatus := c }
  setEnv : ∀ s k v, R s { s with env := s.env.insert k v }
  aliases : ∀ s a, R s { s with aliases := a }
  addVar : ∀ s set m, s.ctx.addVar set = some m → R s { s with ctx := m }
  addVarPos : ∀ s set pos m, s.ctx.addVarPos set pos = some m → R s { s with ctx := m }
  addFunction : ∀ s f b, R s { s with ctx := (s.ctx.addFunction f b).1 }
  removeVar : ∀ s x, R s { s with ctx := s.ctx.removeVar x }
  removeFunction : ∀ s x, R s { s with ctx := s.ctx.removeFunction x }
  removeContext : ∀ s x, R s { s with ctx := s.ctx.removeContext x }
  addVarReadonly : ∀ s set m, s.ctx.addVarReadonly set = some m → R s { s with ctx := m }
  setVarReadonly : ∀ s x m, s.ctx.setVarReadonly x = some m → R s { s with ctx := m }
  envVar : ∀ s id set c, s.ctx.envCtx = some id → (s.ctx.heap id).addSet set = some c →
    R s { s with ctx := s.ctx.setCtx id c }
  envFun : ∀ s id f b, s.ctx.envCtx = some id →
    R s { s with ctx := s.ctx.setCtx id ((s.ctx.heap id).addFunction f b).1 }
  /-- Nothing follows the writing of the history but the end of the shell. -/
  saved : ∀ s loc, Q s { s with trace := .saveHistory loc :: s.trace } := by intro _ _; trivial

/-- The primitive steps that touch neither variables nor functions, aliases, environment or directory,
and a larger construct that opens and closes descriptors (the fork loop). -/
structure JFrame (w : World) (P : (List AndOr → M Int) → Prop) (R Q : Sh → Sh → Prop) : Prop
    extends EFrame R Q where
  masked : ∀ s b, R s { s with masked := b }
  handlers : ∀ s, R s (removeHandlers s).2
  createJob : ∀ s ps b, (∀ p ∈ ps, p.pid = -1) → R s { s with jc := (s.jc.createJob ps b).2 }
  deleteJob : ∀ s id, R s { s with jc := s.jc.deleteJob id }
  resumeJob : ∀ s id b,
    R s { s with jc := s.jc.modJob id fun j => { j with state := .running, background := b } }
  scan : ∀ s pid st r, scanJobs s.held pid st s.jc.current s.jc.table = some r →
    R s { s with jc := { s.jc with table := r.table, current := r.current } }
  waited : ∀ s r rs, s.waits = r :: rs → R s { s with waits := rs, trace := .waited r :: s.trace }
  gotSigchld : ∀ s b, R s { s with gotSigchld := b }
  exitStatus : ∀ s c, R s { s with exitStatus := c }
  subst : ∀ rec x, Evs P R Q rec → Keeps R Q (evalSubshell w rec x)
  fork : ∀ rec b id procs, Evs P R Q rec →
    Keeps R Q (forkLoop w rec b id procs.length procs 0 (-1, -1) (-1))

/-- The other primitive steps, and two larger constructs that open and close a context (a function call
and a context file). -/
structure Frame (w : World) (P : (List AndOr → M Int) → Prop) (R Q : Sh → Sh → Prop) : Prop
    extends JFrame w P R Q, BFrame R Q where
  cwd : ∀ s d p, w.chdir s.trace s.cwd p = some d → R s { s with cwd := d, trace := .chdir p :: s.trace }
  nameSelf : ∀ s id ns, s.ctx.current = some id → R s { s with ctx := s.ctx.addContext ns id }
  func : ∀ rec c, Evs P R Q rec → Keeps R Q (evalFunction rec c)
  ctxFile : ∀ rec file ns, Evs P R Q rec →
    Keeps R Q (createContextFromFile w rec file >>= fun id => addContextM ns id)

/-- The commands of a pipeline have no pid yet. -/
theorem evalCommands_pids {w : World} {rec : List AndOr → M Int} {cs : List Command} {s s' : Sh}
    {procs : List (Process × SimpleCommand)} (h : evalCommands w rec cs s = (.ok procs, s')) :
    ∀ q ∈ procs, q.1.pid = -1 := by
  induction cs generalizing s s' procs with
  | nil => cases h; simp
  | cons c cs ih =>
    unfold evalCommands at h
    obtain ⟨o, s1, h1, h2⟩ := bind_ok_iff.1 h
    cases o with
    | none => cases h2; simp
    | some pc =>
      obtain ⟨rest, s2, h3, h4⟩ := bind_ok_iff.1 h2
      cases h4
      intro q hq
      rcases List.mem_cons.1 hq with rfl | hq
      · unfold evalCommand at h1
        split at h1
        · unfold evalSimple at h1
          split at h1
          · obtain ⟨_, _, _, h5⟩ := bind_ok_iff.1 h1
            cases h5
          · obtain ⟨_, _, _, h5⟩ := bind_ok_iff.1 h1
            obtain ⟨_, _, _, h6⟩ := bind_ok_iff.1 h5
            cases h6; rfl
        · obtain ⟨_, _, _, h5⟩ := bind_ok_iff.1 h1
          cases h5
        · cases h1
      · exact ih h3 q hq

/-- Running the functions of a pipeline leaves some of its commands. -/
theorem runFunctions_sub {rec : List AndOr → M Int} {ps : List (Process × SimpleCommand)} {s s' : Sh}
    {procs : List (Process × SimpleCommand)} (h : runFunctions rec ps s = (.ok procs, s')) :
    ∀ q ∈ procs, q ∈ ps := by
  induction ps generalizing s s' procs with
  | nil => cases h; simp
  | cons p ps ih =>
    obtain ⟨p, c⟩ := p
    unfold runFunctions at h
    simp only [run_getS_bind] at h
    split at h
    · obtain ⟨_, s1, _, h2⟩ := bind_ok_iff.1 h
      simp only [run_getS_bind] at h2
      split at h2
      · cases h2
      · exact fun q hq => List.mem_cons_of_mem _ (ih h2 q hq)
    · obtain ⟨r, s1, h1, h2⟩ := bind_ok_iff.1 h
      cases h2
      intro q hq
      rcases List.mem_cons.1 hq with rfl | hq
      · exact List.mem_cons_self
      · exact List.mem_cons_of_mem _ (ih h1 q hq)

namespace EFrame

variable {w : World} (F : EFrame R Q)
include F

theorem emit (e : Event) (he : Ordinary e = true) : Keeps R Q (Rsh.emit e) :=
  Keeps.modS fun s => F.trace s e he
theorem printM (t : Str) : Keeps R Q (Rsh.printM t) := Keeps.modS fun s => F.trace s _ rfl
theorem eprintM (t : Str) : Keeps R Q (Rsh.eprintM t) := Keeps.modS fun s => F.trace s _ rfl
theorem printlnM (t : Str) : Keeps R Q (Rsh.printlnM t) := F.printM _
theorem eprintlnM (t : Str) : Keeps R Q (Rsh.eprintlnM t) := F.eprintM _

theorem expandVar (h : Held) (x : Str) : Keeps R Q (Rsh.expandVar h x) := by
  unfold Rsh.expandVar
  exact .ite (.panicM F.toSeq _) (.bind F.toSeq (.getS F.toSeq) fun _ => .pure F.toSeq _)

set_option hygiene false in
/-- Close a goal `Keeps R Q m` by the structure of `m`. -/
macro "keeps" : tactic => `(tactic| repeat' first
  | assumption
  | with_reducible exact Keeps.pure F.toSeq _
  | with_reducible exact Keeps.getS F.toSeq
  | with_reducible exact Keeps.throwE F.toSeq _
  | with_reducible exact Keeps.panicM F.toSeq _
  | with_reducible exact Keeps.exitM F.toSeq _
  | with_reducible exact Keeps.execM F.toSeq _
  | with_reducible exact Keeps.hangM F.toSeq
  | with_reducible exact Keeps.deepM F.toSeq
  | with_reducible exact Keeps.unwrapM F.toSeq _ _
  | with_reducible exact Keeps.runChild F.toSeq _ _
  | ((with_reducible refine F.emit _ ?_); rfl)
  | with_reducible exact F.printM _
  | with_reducible exact F.printlnM _
  | with_reducible exact F.eprintM _
  | with_reducible exact F.eprintlnM _
  | with_reducible exact F.interruptsOff
  | with_reducible exact F.interruptsOn
  | with_reducible exact F.removeHandlersM
  | with_reducible exact F.expandVar _ _
  | with_reducible exact F.addVarContext _
  | with_reducible exact F.addVarAt _ _
  | with_reducible exact F.addFunctionM _ _
  | with_reducible exact F.setEnvM _ _
  | with_reducible refine Keeps.bind F.toSeq ?_ fun _ => ?_
  | with_reducible refine Keeps.tryE ?_
  | with_reducible refine Keeps.ite ?_ ?_
  | with_reducible apply_assumption
  | dsimp only
  | split)

theorem lookupCommandM (x : Str) : Keeps R Q (Rsh.lookupCommandM w x) := by
  unfold Rsh.lookupCommandM
  keeps

theorem wordAt (ws : List Str) (i : Nat) : Keeps R Q (Rsh.wordAt ws i) := .unwrapM F.toSeq _ _

/-! ## Expansion -/

variable {rec : List AndOr → M Int}

theorem aliasLookup (c : SimpleCommand) : Keeps R Q (Rsh.aliasLookup c) := by
  unfold Rsh.aliasLookup
  keeps

theorem expandVars (c : SimpleCommand) : Keeps R Q (Rsh.expandVars c) := by
  unfold Rsh.expandVars
  keeps

theorem cutLoop (hsub : ∀ x, Keeps R Q (evalSubshell w rec x)) (n : Nat) (x : Str) :
    Keeps R Q (Rsh.cutLoop w rec n x) := by
  induction n generalizing x with
  | zero => exact .pure F.toSeq _
  | succ n ih =>
    cases x with
    | nil => exact .pure F.toSeq _
    | cons c x =>
      unfold Rsh.cutLoop
      refine .ite ?_ ?_
      · refine .bind F.toSeq (.unwrapM F.toSeq _ _) fun p => ?_
        obtain ⟨sub, rest⟩ := p
        refine .bind F.toSeq (hsub _) fun _ => ?_
        exact .bind F.toSeq (ih _) fun _ => .pure F.toSeq _
      · exact .bind F.toSeq (ih _) fun _ => .pure F.toSeq _

theorem cutQuotes (hsub : ∀ x, Keeps R Q (evalSubshell w rec x)) (x : Str) : Keeps R Q (Rsh.cutQuotes w rec x) := by
  unfold Rsh.cutQuotes
  exact .ite (F.cutLoop hsub _ _) (.pure F.toSeq _)

theorem evalDoubleQuotes (hsub : ∀ x, Keeps R Q (evalSubshell w rec x)) (x : Str) :
    Keeps R Q (Rsh.evalDoubleQuotes w rec x) := by
  unfold Rsh.evalDoubleQuotes
  refine .ite ?_ ?_
  · exact .bind F.toSeq (F.cutQuotes hsub _) fun _ => .pure F.toSeq _
  · refine .bind F.toSeq (F.cutQuotes hsub _) fun _ => ?_
    refine .bind F.toSeq (hsub _) fun _ => ?_
    exact .ite (.pure F.toSeq _) (.pure F.toSeq _)

theorem evalNameWords (hsub : ∀ x, Keeps R Q (evalSubshell w rec x)) (ps : List Str) :
    Keeps R Q (Rsh.evalNameWords w rec ps) := by
  induction ps with
  | nil => exact .pure F.toSeq _
  | cons p ps ih =>
    unfold Rsh.evalNameWords
    have h1 := F.evalDoubleQuotes hsub
    keeps

theorem evalSuffixWords (hsub : ∀ x, Keeps R Q (evalSubshell w rec x)) (ps : List Str) :
    Keeps R Q (Rsh.evalSuffixWords w rec ps) := by
  induction ps with
  | nil => exact .pure F.toSeq _
  | cons p ps ih =>
    unfold Rsh.evalSuffixWords
    have h1 := F.evalDoubleQuotes hsub
    have h2 := F.cutQuotes hsub
    keeps

theorem evalWords (hsub : ∀ x, Keeps R Q (evalSubshell w rec x)) (c : SimpleCommand) :
    Keeps R Q (Rsh.evalWords w rec c) := by
  unfold Rsh.evalWords
  have h1 := F.evalNameWords hsub
  have h2 := F.cutQuotes hsub
  have h3 := F.evalSuffixWords hsub
  keeps

theorem expandCommand (hsub : ∀ x, Keeps R Q (evalSubshell w rec x)) (c : SimpleCommand) :
    Keeps R Q (Rsh.expandCommand w rec c) := by
  unfold Rsh.expandCommand
  refine .bind F.toSeq (F.aliasLookup _) fun c1 => ?_
  exact .bind F.toSeq (F.expandVars _) fun c2 => F.evalWords hsub _

theorem showJobs (h : Held) (t : List (Nat × Job)) : Keeps R Q (Rsh.showJobs h t) := by
  induction t with
  | nil => exact .pure F.toSeq _
  | cons p t ih =>
    obtain ⟨id, j⟩ := p
    unfold Rsh.showJobs
    keeps

theorem displayJobs : Keeps R Q Rsh.displayJobs := by
  unfold Rsh.displayJobs
  exact .bind F.toSeq (.getS F.toSeq) fun _ => F.showJobs _ _

end EFrame

namespace BFrame

variable {w : World} (F : BFrame R Q)
include F

theorem addVarContext (set : Str) : Keeps R Q (Rsh.addVarContext set) := by
  intro s
  unfold Rsh.addVarContext
  simp only [run_getS_bind]
  cases h : s.ctx.addVar set with
  | none => exact F.rq (F.refl s)
  | some m => exact F.addVar s set m h

theorem addVarAt (set : Str) (pos : Nat) : Keeps R Q (Rsh.addVarAt set pos) := by
  intro s
  unfold Rsh.addVarAt
  simp only [run_getS_bind]
  cases h : s.ctx.addVarPos set pos with
  | none => exact F.rq (F.refl s)
  | some m => exact F.addVarPos s set pos m h

theorem addFunctionM (f : Str) (b : FunctionBody) : Keeps R Q (Rsh.addFunctionM f b) := by
  intro s
  unfold Rsh.addFunctionM
  have h := F.addFunction s f b
  simp only [run_getS_bind, setCtxMgr, run_modS_bind]
  rcases e : s.ctx.addFunction f b with ⟨m, ro⟩
  rw [e] at h
  simp only at h ⊢
  split
  · exact Keeps.post_trans F.toSeq h (F.eprintM _ _)
  · exact h

theorem setEnvM (k v : Str) : Keeps R Q (Rsh.setEnv k v) := by
  intro s
  unfold Rsh.setEnv
  split
  · exact F.rq (F.refl s)
  · exact F.setEnv s k v

theorem saveHistory : Keeps Q Q (Rsh.saveHistory w) := by
  intro s
  unfold Rsh.saveHistory
  rw [run_getS_bind]
  split
  · exact F.saved s _
  · exact F.rq (F.trace s _ rfl)

theorem bExit (c : SimpleCommand) : Keeps R Q (Rsh.bExit w c) := by
  intro s
  unfold Rsh.bExit
  rw [run_bind]
  have h := F.saveHistory (w := w) s
  rcases hr : Rsh.saveHistory w s with ⟨o, s1⟩
  rw [hr] at h
  cases o with
  | ok a =>
    have h : Q s s1 := h
    simp only
    cases c.words with
    | nil => exact h
    | cons x ws =>
      simp only [run_bind]
      cases parseI32 x <;> exact h
  | err e =>
    unfold Rsh.saveHistory at hr
    rw [run_getS_bind] at hr
    split at hr <;> cases hr
  | _ => exact h

theorem bReturn (c : SimpleCommand) : Keeps R Q (Rsh.bReturn c) := by
  unfold Rsh.bReturn
  split
  · keeps
  · refine .bind F.toSeq (.unwrapM F.toSeq _ _) fun code => ?_
    exact Keeps.modS fun s => F.exitStatus s code

theorem bJobs : Keeps R Q Rsh.bJobs := by
  unfold Rsh.bJobs
  have := F.displayJobs
  keeps

theorem displayAliases (a : AMap Str) : Keeps R Q (Rsh.displayAliases a) := by
  induction a with
  | nil => exact .pure F.toSeq _
  | cons p a ih =>
    obtain ⟨k, v⟩ := p
    unfold Rsh.displayAliases
    keeps

theorem addAlias (x : Str) : Keeps R Q (Rsh.addAlias x) := by
  unfold Rsh.addAlias
  split
  · exact Keeps.modS fun s => F.aliases s _
  · exact F.eprintlnM _

theorem addAliases (xs : List Str) : Keeps R Q (Rsh.addAliases xs) := by
  induction xs with
  | nil => exact .pure F.toSeq _
  | cons x xs ih =>
    unfold Rsh.addAliases
    have := F.addAlias
    keeps

theorem bAlias (c : SimpleCommand) : Keeps R Q (Rsh.bAlias c) := by
  unfold Rsh.bAlias
  refine .bind F.toSeq (.getS F.toSeq) fun s => ?_
  split
  · exact F.displayAliases _
  · exact .bind F.toSeq (F.wordAt _ _) fun _ => .ite (F.displayAliases _) (F.addAliases _)

theorem bUnalias (c : SimpleCommand) : Keeps R Q (Rsh.bUnalias c) := by
  unfold Rsh.bUnalias
  split
  · keeps
  · refine .ite (.throwE F.toSeq _) ?_
    refine .bind F.toSeq (F.wordAt _ _) fun _ => ?_
    exact .ite (Keeps.modS fun s => F.aliases s _) (Keeps.modS fun s => F.aliases s _)

theorem readFileM (p : Str) : Keeps R Q (Rsh.readFileM w p) := by
  unfold Rsh.readFileM
  keeps

theorem printEnv (a : AMap Str) : Keeps R Q (Rsh.printEnv a) := by
  induction a with
  | nil => exact .pure F.toSeq _
  | cons p a ih =>
    obtain ⟨k, v⟩ := p
    unfold Rsh.printEnv
    keeps

theorem exportName (x : Str) : Keeps R Q (Rsh.exportName x) := by
  unfold Rsh.exportName
  refine .bind F.toSeq (F.expandVar _ _) fun v s => ?_
  simp only [run_getS_bind]
  cases he : s.ctx.envCtx with
  | none => exact F.rq (F.refl s)
  | some env =>
    simp only [unwrapM_some, pure_bind]
    cases v with
    | some v =>
      simp only
      cases hc : (s.ctx.heap env).addSet (x ++ '=' :: v) with
      | none => exact F.rq (F.refl s)
      | some c => exact F.envVar s env _ c he hc
    | none =>
      simp only
      cases hf : s.ctx.getFunction x with
      | none => exact F.refl s
      | some f =>
        simp only
        have h := F.envFun s env x f he
        rcases e : (s.ctx.heap env).addFunction x f with ⟨c, ro⟩
        rw [e] at h
        simp only [setCtxMgr, run_modS_bind]
        split
        · exact Keeps.post_trans F.toSeq h (F.eprintM _ _)
        · exact h

theorem exportSet (x : Str) : Keeps R Q (Rsh.exportSet x) := by
  unfold Rsh.exportSet
  rcases splitSet x with ⟨k, v⟩
  exact .bind F.toSeq (F.addVarAt _ _) fun _ => F.setEnvM _ _

theorem exportAll (xs : List Str) : Keeps R Q (Rsh.exportAll xs) := by
  induction xs with
  | nil => exact .pure F.toSeq _
  | cons x xs ih =>
    unfold Rsh.exportAll
    have h1 := F.exportSet
    have h2 := F.exportName
    keeps

theorem bAssign (c : SimpleCommand) : Keeps R Q (Rsh.bAssign c) := by
  unfold Rsh.bAssign
  keeps

theorem bPwd : Keeps R Q Rsh.bPwd := by
  unfold Rsh.bPwd
  keeps

theorem unsetFlags (x : Str) : Keeps R Q (Rsh.unsetFlags x) := by
  unfold Rsh.unsetFlags
  keeps

theorem bUnset (c : SimpleCommand) : Keeps R Q (Rsh.bUnset c) := by
  unfold Rsh.bUnset
  split
  · keeps
  · refine .bind F.toSeq (F.unsetFlags _) fun p => ?_
    obtain ⟨fl, pos⟩ := p
    refine .bind F.toSeq (F.wordAt _ _) fun a => ?_
    cases fl
    · exact Keeps.modS fun s => F.removeVar s a
    · exact Keeps.modS fun s => F.removeFunction s a
    · exact Keeps.modS fun s => F.removeContext s a

omit F in
theorem fmtVar_none (n : Nat) : fmtVar n = none := by
  induction n with
  | zero => rfl
  | succ n ih => exact ih

omit F in
theorem printReadonly_cons (x : Str) (xs : List Str) :
    Rsh.printReadonly (x :: xs) = panicM .stackOverflow := by
  rw [Rsh.printReadonly, fmtVar_none]

theorem printReadonly (xs : List Str) : Keeps R Q (Rsh.printReadonly xs) := by
  cases xs with
  | nil => exact .pure F.toSeq _
  | cons x xs =>
    rw [printReadonly_cons]
    exact .panicM F.toSeq _

theorem printNames (xs : List Str) : Keeps R Q (Rsh.printNames xs) := by
  induction xs with
  | nil => exact .pure F.toSeq _
  | cons x xs ih =>
    unfold Rsh.printNames
    keeps

theorem readonlyFlags (x : Str) : Keeps R Q (Rsh.readonlyFlags x) := by
  unfold Rsh.readonlyFlags
  keeps

theorem readonlyFlags2 (x : Str) (pos : Nat) (b : Bool) : Keeps R Q (Rsh.readonlyFlags2 x pos b) := by
  unfold Rsh.readonlyFlags2
  keeps

theorem readonlyPrint (fl : Flags) (ws : List Str) (pos : Nat) :
    Keeps R Q (Rsh.readonlyPrint fl ws pos) := by
  unfold Rsh.readonlyPrint
  have h1 := F.printNames
  have h2 := F.printReadonly
  refine .bind F.toSeq (.getS F.toSeq) fun s => ?_
  split
  · exact h1 _
  · exact .bind F.toSeq (h2 _) fun _ => h2 _
  · split
    · keeps
    · exact .bind F.toSeq (h2 _) fun _ => h2 _

theorem bReadonly (c : SimpleCommand) : Keeps R Q (Rsh.bReadonly c) := by
  unfold Rsh.bReadonly
  split
  · keeps
  · next heq =>
    rw [← heq]
    refine .bind F.toSeq (F.readonlyFlags _) fun p => ?_
    obtain ⟨fl, pos, print⟩ := p
    refine .bind F.toSeq (F.wordAt _ _) fun y => ?_
    refine .bind F.toSeq (F.readonlyFlags2 _ _ _) fun p => ?_
    obtain ⟨pos, print⟩ := p
    refine .ite (F.readonlyPrint _ _ _) fun s => ?_
    simp only [run_getS_bind]
    split
    · exact F.printNames _ _
    · cases c.words[pos]? with
      | none => exact F.refl s
      | some a =>
        simp only
        split
        · cases h : s.ctx.addVarReadonly a with
          | none => exact F.rq (F.refl s)
          | some m => exact F.addVarReadonly s a m h
        · cases h : s.ctx.setVarReadonly a with
          | none => exact F.rq (F.refl s)
          | some m => exact F.setVarReadonly s a m h

theorem execOpts1 (ws : List Str) : Keeps R Q (Rsh.execOpts1 ws) := by
  unfold Rsh.execOpts1
  refine .bind F.toSeq (F.wordAt _ _) fun x => ?_
  simp only
  keeps

theorem execOpts2 (ws : List Str) (o : ExecOpts) : Keeps R Q (Rsh.execOpts2 ws o) := by
  unfold Rsh.execOpts2
  refine .bind F.toSeq (F.wordAt _ _) fun x => ?_
  refine .ite ?_ (.pure F.toSeq _)
  simp only
  refine .bind F.toSeq (F.wordAt _ _) fun y => ?_
  refine .bind F.toSeq (F.wordAt _ _) fun z => ?_
  keeps

theorem sourceArgs (i : Nat) (as : List Str) : Keeps R Q (Rsh.sourceArgs i as) := by
  induction as generalizing i with
  | nil => exact .pure F.toSeq _
  | cons a as ih =>
    unfold Rsh.sourceArgs
    exact .bind F.toSeq (F.addVarContext _) fun _ => ih _

end BFrame

namespace JFrame

variable {w : World} {P : (List AndOr → M Int) → Prop} (F : JFrame w P R Q)
include F

theorem interruptsOff : Keeps R Q Rsh.interruptsOff := Keeps.modS fun s => F.masked s true
theorem interruptsOn : Keeps R Q Rsh.interruptsOn := Keeps.modS fun s => F.masked s false
theorem removeHandlersM : Keeps R Q removeHandlers := fun s => F.handlers s

/-! ## Jobs -/

theorem deleteJobM (id : Nat) : Keeps R Q (Rsh.deleteJobM id) := by
  unfold Rsh.deleteJobM
  have : Keeps R Q (modJc (·.deleteJob id)) := Keeps.modS fun s => F.deleteJob s id
  keeps

theorem createJobM (ps : List Process) (b : Bool) (h : ∀ p ∈ ps, p.pid = -1) :
    Keeps R Q (Rsh.createJobM ps b) :=
  fun s => F.createJob s ps b h

theorem waitpidM : Keeps R Q Rsh.waitpidM := by
  intro s
  unfold Rsh.waitpidM
  split
  · exact F.rq (F.refl s)
  · next r rs e => exact F.waited s r rs e

theorem waitRetry (n : Nat) : Keeps R Q (Rsh.waitRetry n) := by
  induction n with
  | zero => exact .hangM F.toSeq
  | succ n ih =>
    unfold Rsh.waitRetry
    have := F.waitpidM
    keeps

theorem waitProcess : Keeps R Q Rsh.waitProcess := by
  unfold Rsh.waitProcess
  refine .bind F.toSeq (Keeps.modS fun s => F.gotSigchld s false) fun _ => ?_
  exact .bind F.toSeq (.getS F.toSeq) fun _ => F.waitRetry _

theorem formatStatus (st : WStatus) : Keeps R Q (Rsh.formatStatus w st) := by
  unfold Rsh.formatStatus
  refine .bind F.toSeq (.getS F.toSeq) fun s => ?_
  simp only
  keeps

theorem waitOne (id : Nat) : Keeps R Q (Rsh.waitOne w id) := by
  unfold Rsh.waitOne
  refine .bind F.toSeq F.interruptsOff fun _ => ?_
  refine .bind F.toSeq F.waitProcess fun r => ?_
  have hf := F.formatStatus
  split
  · keeps
  · keeps
  · next st =>
    refine .ite (by keeps) fun s => ?_
    simp only [run_getS_bind]
    refine Keeps.bindAt F.toSeq (Keeps.unwrapM F.toSeq _ _ s) fun r s1 h => ?_
    cases hs : scanJobs s.held (waitPid st) st s.jc.current s.jc.table with
    | none => rw [hs] at h; cases h
    | some r' =>
      rw [hs] at h
      cases h
      refine Keeps.post_trans F.toSeq (F.scan s _ _ _ hs) ?_
      have : Keeps R Q (do
          Rsh.interruptsOn
          if r.thisJob = some id then
            match ← Rsh.formatStatus w st with
            | some line => Rsh.printlnM line
            | none => pure ()
          pure WaitOne.some) := by
        keeps
      exact this _

theorem doWaitLoop (id n : Nat) (b : Bool) : Keeps R Q (Rsh.doWaitLoop w id n b) := by
  induction n generalizing b with
  | zero => exact .hangM F.toSeq
  | succ n ih =>
    unfold Rsh.doWaitLoop
    have h1 := F.waitOne id
    have h2 := ih false
    have h3 : Keeps R Q (modS fun s => { s with gotSigchld := false }) :=
      Keeps.modS fun s => F.gotSigchld s false
    keeps

theorem doWait (id : Nat) : Keeps R Q (Rsh.doWait w id) := by
  unfold Rsh.doWait
  refine .bind F.toSeq (.getS F.toSeq) fun s => ?_
  refine .bind F.toSeq (.unwrapM F.toSeq _ _) fun s => ?_
  exact .ite (.pure F.toSeq _) (F.doWaitLoop _ _ _)

theorem waitForJob (id : Nat) : Keeps R Q (Rsh.waitForJob w id) := by
  unfold Rsh.waitForJob
  have h1 := F.doWait id
  have h2 := F.deleteJobM id
  keeps

variable {rec : List AndOr → M Int}

theorem evalCC (hrec : Evs P R Q rec) (cc : CompleteCommand) :
    Keeps R Q (Rsh.evalCC rec cc) := by
  cases cc with
  | none => exact .pure F.toSeq _
  | some l => exact hrec.2 l

end JFrame

namespace Frame

variable {w : World} {P : (List AndOr → M Int) → Prop} (F : Frame w P R Q)
include F

variable {rec : List AndOr → M Int}

/-! ## Builtins -/

theorem bCd (c : SimpleCommand) : Keeps R Q (Rsh.bCd w c) := by
  unfold Rsh.bCd
  have S := F.toSeq
  have hpath : ∀ {a : Str} {o : Option Str} {k : PanicKind} {s s1 : Sh}, Rsh.unwrapM k o s = (.ok a, s1) → s1 = s := by
    intro a o k s s1 h
    cases o <;> cases h
    rfl
  refine .bind S F.interruptsOff fun _ s => ?_
  rw [run_getS_bind]
  have key : ∀ p, Post R Q s ((match w.chdir s.trace s.cwd p with
      | none => Rsh.throwE w.osMsg
      | some d => do
        modS fun s => { s with cwd := d, trace := Event.chdir p :: s.trace }
        Rsh.interruptsOn : M Unit) s) := by
    intro p
    cases hd : w.chdir s.trace s.cwd p with
    | none => exact S.refl s
    | some d =>
      refine Keeps.bindAt S (F.cwd s d p hd) fun _ s1 _ => F.interruptsOn s1
  cases c.suffix with
  | none =>
    exact Keeps.bindAt S (Keeps.unwrapM S _ _ s) fun p s1 h => by rw [hpath h]; exact key p
  | some sf =>
    exact Keeps.bindAt S (F.wordAt _ _ s) fun p s1 h => by rw [hpath h]; exact key p

theorem fgbgId (c : SimpleCommand) : Keeps R Q (Rsh.fgbgId c) := by
  unfold Rsh.fgbgId
  split
  · keeps
  · exact .bind F.toSeq (F.wordAt _ _) fun x => by keeps

theorem findJob (id : Nat) (ty : IdType) : Keeps R Q (Rsh.findJob id ty) := by
  unfold Rsh.findJob
  keeps

theorem contAll (ps : List Process) : Keeps R Q (Rsh.contAll w ps) := by
  induction ps with
  | nil => exact .pure F.toSeq _
  | cons p ps ih =>
    unfold Rsh.contAll
    keeps

theorem resume (j : Job) (b : Bool) : Keeps R Q (Rsh.resume w j b) := by
  unfold Rsh.resume
  refine .bind F.toSeq (.getS F.toSeq) fun s => ?_
  refine .ite (.panicM F.toSeq _) ?_
  refine .bind F.toSeq (Keeps.modS fun s => F.resumeJob s _ _) fun _ => ?_
  exact .bind F.toSeq (F.contAll _) fun _ => F.printlnM _

theorem bFgBg (c : SimpleCommand) : Keeps R Q (Rsh.bFgBg w c) := by
  unfold Rsh.bFgBg
  have h0 := F.fgbgId
  have h1 := F.resume
  have h2 := F.waitForJob
  have h3 := F.findJob
  keeps

theorem addSelf (ns : Str) (id : Nat) (s : Sh) (h : s.ctx.current = some id) :
    Post R Q s (addContextM ns id s) := F.nameSelf s id ns h

theorem exportContext (hrec : Evs P R Q rec) (a : Str) :
    Keeps R Q (Rsh.exportContext w rec a) := by
  intro s
  unfold Rsh.exportContext
  simp only [run_getS_bind]
  cases hc : s.ctx.current with
  | none => exact F.rq (F.refl s)
  | some cur =>
    simp only [unwrapM_some, pure_bind]
    split
    · rcases splitSet a with ⟨ns, file⟩
      simp only
      split
      · exact F.addSelf _ _ _ hc
      · exact F.ctxFile rec file ns hrec s
    · split
      · refine Keeps.bindAt F.toSeq (Keeps.unwrapM F.toSeq _ _ s) fun v s1 h => ?_
        cases hv : (s.ctx.heap cur).getVar (cs!"0") with
        | none => rw [hv] at h; cases h
        | some b => rw [hv] at h; cases h; exact F.addSelf _ _ _ hc
      · exact F.ctxFile rec _ _ hrec s

theorem bExport (hrec : Evs P R Q rec) (c : SimpleCommand) :
    Keeps R Q (Rsh.bExport w rec c) := by
  unfold Rsh.bExport
  have h1 := F.printEnv
  split
  · exact .bind F.toSeq (.getS F.toSeq) fun s => h1 _
  · refine .ite (.bind F.toSeq (.getS F.toSeq) fun s => h1 _) (.ite ?_ (F.exportAll _))
    split
    · keeps
    · exact F.exportContext hrec _

theorem bEval (hrec : Evs P R Q rec) (c : SimpleCommand) :
    Keeps R Q (Rsh.bEval w rec c) := by
  unfold Rsh.bEval
  have h1 := F.evalCC hrec
  split
  · keeps
  · refine .bind F.toSeq (F.wordAt _ _) fun x => ?_
    simp only
    split
    · keeps
    · refine .bind F.toSeq (.tryE (h1 _)) fun r => ?_
      keeps

theorem tempExecve (a : Str) (argv : List Str) (env : AMap Str) :
    Keeps R Q (Rsh.tempExecve w a argv env) := by
  unfold Rsh.tempExecve
  have h1 := F.lookupCommandM (w := w) a
  keeps

theorem bExec (c : SimpleCommand) : Keeps R Q (Rsh.bExec w c) := by
  unfold Rsh.bExec
  split
  · keeps
  · refine .bind F.toSeq (F.execOpts1 _) fun o => ?_
    refine .bind F.toSeq (F.execOpts2 _ _) fun o => ?_
    simp only
    refine .ite (.panicM F.toSeq _) ?_
    refine .bind F.toSeq (F.wordAt _ _) fun a => ?_
    exact .bind F.toSeq (.getS F.toSeq) fun s => F.tempExecve _ _ _

theorem bSource (hrec : Evs P R Q rec) (c : SimpleCommand) :
    Keeps R Q (Rsh.bSource w rec c) := by
  unfold Rsh.bSource
  have h1 := F.evalCC hrec
  have h2 := F.sourceArgs
  have h3 := F.lookupCommandM (w := w)
  have h4 := F.readFileM (w := w)
  keeps

theorem callBuiltin (hrec : Evs P R Q rec) (c : SimpleCommand) :
    Keeps R Q (Rsh.callBuiltin w rec c) := by
  unfold Rsh.callBuiltin
  exact .ite (F.bCd _) <| .ite (F.bExit _) <| .ite (F.bReturn _) <| .ite F.bJobs <|
    .ite (F.bFgBg _) <| .ite (F.bAlias _) <| .ite (F.bUnalias _) <| .ite (F.bExport hrec _) <|
    .ite (F.bEval hrec _) <| .ite (F.bUnset _) <| .ite F.bPwd <| .ite (F.bReadonly _) <|
    .ite (F.bExec _) <| .ite (F.bSource hrec _) <| .ite (F.bAssign _) (.throwE F.toSeq _)

/-! ## Evaluation -/

theorem evalBuiltin (hrec : Evs P R Q rec) (c : SimpleCommand) :
    Keeps R Q (Rsh.evalBuiltin w rec c) := by
  unfold Rsh.evalBuiltin
  exact .bind F.toSeq (F.expandCommand (fun x => F.subst _ x hrec) _) fun _ => F.callBuiltin hrec _

theorem evalSimple (hrec : Evs P R Q rec) (c : SimpleCommand) :
    Keeps R Q (Rsh.evalSimple w rec c) := by
  unfold Rsh.evalSimple
  refine .ite ?_ ?_
  · exact .bind F.toSeq (F.evalBuiltin hrec _) fun _ => .pure F.toSeq _
  · refine .bind F.toSeq (F.expandCommand (fun x => F.subst _ x hrec) _) fun _ => ?_
    keeps

theorem evalCommand (hrec : Evs P R Q rec) (c : Command) :
    Keeps R Q (Rsh.evalCommand w rec c) := by
  unfold Rsh.evalCommand
  split
  · exact F.evalSimple hrec _
  · keeps
  · keeps

theorem evalCommands (hrec : Evs P R Q rec) (cs : List Command) :
    Keeps R Q (Rsh.evalCommands w rec cs) := by
  induction cs with
  | nil => exact .pure F.toSeq _
  | cons c cs ih =>
    unfold Rsh.evalCommands
    refine .bind F.toSeq (F.evalCommand hrec _) fun o => ?_
    keeps

theorem callFunction (hrec : Evs P R Q rec) (c : SimpleCommand) :
    Keeps R Q (Rsh.callFunction rec c) := by
  unfold Rsh.callFunction
  refine .bind F.toSeq (.tryE (F.func _ _ hrec)) fun r => ?_
  keeps

theorem runFunctions (hrec : Evs P R Q rec) (ps : List (Process × SimpleCommand)) :
    Keeps R Q (Rsh.runFunctions rec ps) := by
  induction ps with
  | nil => exact .pure F.toSeq _
  | cons p ps ih =>
    obtain ⟨p, c⟩ := p
    unfold Rsh.runFunctions
    refine .bind F.toSeq (.getS F.toSeq) fun s => ?_
    refine .ite ?_ ?_
    · refine .bind F.toSeq (F.callFunction hrec _) fun _ => ?_
      refine .bind F.toSeq (.getS F.toSeq) fun s => ?_
      refine .ite (.exitM F.toSeq _) ?_
      exact .bind F.toSeq (Keeps.modS fun s => F.exitStatus s 0) fun _ => ih
    · exact .bind F.toSeq ih fun _ => .pure F.toSeq _

theorem afterFork (b : Bool) (id count : Nat) : Keeps R Q (Rsh.afterFork w b id count) := by
  unfold Rsh.afterFork
  refine .ite (F.deleteJobM _) (.ite ?_ ?_)
  · keeps
  · refine .bind F.toSeq (F.waitForJob _) fun st => ?_
    refine .bind F.toSeq (F.deleteJobM _) fun _ => ?_
    split
    · exact Keeps.modS fun s => F.exitStatus s _
    · exact .pure F.toSeq _

theorem evalPipeline (hrec : Evs P R Q rec) (pl : Pipeline) :
    Keeps R Q (Rsh.evalPipeline w rec pl) := by
  have h4 := fun b id procs => F.fork rec b id procs hrec
  have h5 := F.afterFork
  have h3 : ∀ procs : List (Process × SimpleCommand), (∀ q ∈ procs, q.1.pid = -1) → Keeps R Q (do
      let jobId ← Rsh.createJobM (procs.map Prod.fst) pl.background
      forkLoop w rec pl.background jobId procs.length procs 0 (-1, -1) (-1)
      Rsh.afterFork w pl.background jobId procs.length
      Rsh.interruptsOn
      let s ← getS
      pure s.exitStatus) := by
    intro procs hp
    refine .bind F.toSeq (F.createJobM _ _ fun p hm => ?_) fun id => ?_
    · obtain ⟨q, hq, rfl⟩ := List.mem_map.1 hm
      exact hp q hq
    · keeps
  intro s
  unfold Rsh.evalPipeline
  refine Keeps.bindAt F.toSeq (F.interruptsOff s) fun _ s1 _ => ?_
  refine Keeps.bindAt F.toSeq (F.evalCommands hrec _ s1) fun procs s2 hc => ?_
  have hprocs := evalCommands_pids hc
  dsimp only
  split
  · exact F.refl s2
  · split
    · exact h3 procs hprocs s2
    · refine Keeps.bindAt F.toSeq (F.runFunctions hrec _ s2) fun procs' s3 hr => ?_
      exact h3 procs' (fun q hq => hprocs q (runFunctions_sub hr q hq)) s3

theorem evalAndOr (hrec : Evs P R Q rec) (a : AndOr) :
    Keeps R Q (Rsh.evalAndOr w rec a) := by
  match a with
  | .mk none _ p =>
    unfold Rsh.evalAndOr
    exact F.evalPipeline hrec _
  | .mk (some l) cond p =>
    unfold Rsh.evalAndOr
    have h1 := evalAndOr hrec l
    have h2 := F.evalPipeline hrec p
    keeps

theorem evalListFrom (hrec : Evs P R Q rec) (st : Int) (l : List AndOr) :
    Keeps R Q (Rsh.evalListFrom w rec st l) := by
  induction l generalizing st with
  | nil => exact .pure F.toSeq _
  | cons a as ih =>
    unfold Rsh.evalListFrom
    exact .bind F.toSeq (F.evalAndOr hrec _) fun _ => ih _

/-- Every evaluation keeps `R` and `Q`. -/
theorem evalFuel (hP : ∀ n, P (Rsh.evalFuel w n)) (n : Nat) (l : List AndOr) : Keeps R Q (Rsh.evalFuel w n l) := by
  induction n generalizing l with
  | zero => exact .deepM F.toSeq
  | succ n ih => exact F.evalListFrom ⟨hP n, ih⟩ _ _

theorem evalTop (hP : ∀ n, P (Rsh.evalFuel w n)) (n : Nat) (cc : CompleteCommand) : Keeps R Q (Rsh.evalTop w n cc) :=
  F.evalCC ⟨hP n, F.evalFuel hP n⟩ cc

end Frame

end Rsh
