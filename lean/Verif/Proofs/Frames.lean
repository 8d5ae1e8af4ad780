import Verif.Proofs.Frame
import Verif.Proofs.Context
import Verif.Spec.CtxOps

/-!
# Instances of the invariant framework
-/

namespace Rsh

open Spec

variable {R Q : Sh → Sh → Prop} {w : World} {P : (List AndOr → M Int) → Prop}
  {rec : List AndOr → M Int}

/-! ## Relations that do not look at descriptors -/

section Fd

variable (S : Seq R Q) (hfd : ∀ s f n, R s { s with fds := f, nextPipe := n })
include S hfd

theorem pipeM_of : Keeps R Q (pipeM w) := by
  intro s
  unfold pipeM
  split
  · exact hfd s _ _
  · exact S.refl s

theorem closeM_of (fd : Int) : Keeps R Q (closeM fd) := by
  intro s
  unfold closeM
  split
  · exact hfd s _ s.nextPipe
  · exact S.refl s

theorem closeU_of (fd : Int) : Keeps R Q (closeU fd) := by
  unfold closeU
  refine .bind S (closeM_of S hfd fd) fun b => ?_
  exact .ite (.pure S _) (.panicM S _)

omit hfd in
theorem onSigOther_of (ht : ∀ s e, Common e = true → R s { s with trace := e :: s.trace }) (g : Nat) :
    Keeps R Q (onSigOther w g) := by
  have he : ∀ e, Common e = true → Keeps R Q (emit e) := fun e h => Keeps.modS fun s => ht s e h
  unfold onSigOther
  refine .bind S (.getS S) fun s => .ite (.pure S _) (.ite ?_ (.pure S _))
  split
  · exact .panicM S _
  · exact .ite (he _ rfl) (.panicM S _)

omit hfd in
theorem substSignal_of (ht : ∀ s e, Common e = true → R s { s with trace := e :: s.trace }) (o : Option Nat) :
    Keeps R Q (substSignal w o) := by
  unfold substSignal
  split
  · exact .pure S _
  · refine .bind S (.getS S) fun s => .ite (.pure S _) ?_
    split
    · exact .pure S _
    · exact .bind S (onSigOther_of S ht _) fun _ => .panicM S _
    · exact .ite (.pure S _) (.exitM S _)

theorem subst_of (ht : ∀ s e, Common e = true → R s { s with trace := e :: s.trace }) (x : Str) :
    Keeps R Q (evalSubshell w rec x) := by
  have he : ∀ e, Common e = true → Keeps R Q (emit e) := fun e h => Keeps.modS fun s => ht s e h
  unfold evalSubshell
  split
  · exact .pure S _
  · refine .bind S (.unwrapM S _ _) fun cc => ?_
    refine .bind S (.getS S) fun st => ?_
    refine .bind S (.bind S (pipeM_of S hfd) fun o => .unwrapM S _ _) fun p => ?_
    obtain ⟨r, wr⟩ := p
    refine .bind S (.getS S) fun st => ?_
    refine .bind S (.unwrapM S _ _) fun _ => ?_
    refine .bind S (.runChild S _ _) fun p => ?_
    obtain ⟨e, evs⟩ := p
    refine .bind S (he _ rfl) fun _ => ?_
    refine .bind S (closeU_of S hfd _) fun _ => ?_
    refine .bind S (.getS S) fun st => ?_
    refine .bind S (substSignal_of S ht _) fun _ => ?_
    simp only
    split
    · exact .hangM S
    · refine .ite (.hangM S) ?_
      exact .bind S (closeU_of S hfd _) fun _ => .pure S _

theorem fork_of (ht : ∀ s e, Common e = true → R s { s with trace := e :: s.trace })
    (hspawn : ∀ s id i pid e evs, w.fork s.trace = some pid →
      R s { s with trace := .spawn pid e evs :: s.trace
                   jc := (s.jc.modJob id (setPidAt i pid)).updatePid id pid })
    (b : Bool) (id total : Nat) (procs : List (Process × SimpleCommand)) (count : Nat)
    (pip : Int × Int) (prev : Int) :
    Keeps R Q (forkLoop w rec b id total procs count pip prev) := by
  have he : ∀ e, Common e = true → Keeps R Q (emit e) := fun e h => Keeps.modS fun s => ht s e h
  induction procs generalizing count pip prev with
  | nil => exact .pure S _
  | cons pc rest ih =>
    obtain ⟨p, c⟩ := pc
    unfold forkLoop
    have h1 : ∀ pip : Int × Int, Keeps R Q (do
        let s ← getS
        match w.fork s.trace with
        | none => emit .forkFailed
        | some pid => do
          let (e, evs) ← runChild w (pipelineChild w rec b id pip prev p c)
          emit (.spawn pid e evs)
          modJc fun jc => (jc.modJob id (setPidAt count pid)).updatePid id pid
        if 0 ≤ prev then closeU prev else pure ()
        let _ ← closeM pip.2
        forkLoop w rec b id total rest (count + 1) pip pip.1) := by
      intro pip
      have h2 : Keeps R Q (do
          if 0 ≤ prev then closeU prev else pure ()
          let _ ← closeM pip.2
          forkLoop w rec b id total rest (count + 1) pip pip.1) := by
        have h3 : Keeps R Q (do
          let _ ← closeM pip.2
          forkLoop w rec b id total rest (count + 1) pip pip.1) :=
          .bind S (closeM_of S hfd _) fun _ => ih _ _ _
        dsimp only
        refine .ite ?_ h3
        exact .bind S (closeU_of S hfd _) fun _ => h3
      intro s
      rw [run_getS_bind]
      dsimp only at h2 ⊢
      rcases hf : w.fork s.trace with _ | pid
      · exact Keeps.bind S (he _ rfl) (fun _ => h2) s
      · refine Keeps.bindAt S (Keeps.runChild S _ _ s) fun q s1 hr => ?_
        obtain ⟨e, evs⟩ := q
        have hs : s1 = s := by
          unfold runChild at hr
          rcases hb : pipelineChild w rec b id pip prev p c (childStart w s) with ⟨o, s2⟩
          rw [hb] at hr
          simp only at hr
          split at hr
          · exact (Prod.mk.inj hr).2.symm
          · cases hr
        subst hs
        simp only [emit, modJc, run_modS_bind]
        exact Keeps.post_trans S (hspawn s1 id count pid e evs hf) (h2 _)
    dsimp only at h1 ⊢
    refine .ite ?_ ?_
    · refine .bind S (pipeM_of S hfd) fun o => ?_
      cases o with
      | none => exact .throwE S _
      | some pr => exact h1 pr
    · exact h1 _

end Fd

/-! ## Relations that do not look at variables, functions and contexts -/

section Ctx

variable (S : Seq R Q) (hctx : ∀ s m, R s { s with ctx := m })
include S hctx

theorem addVarContext_of (set : Str) : Keeps R Q (addVarContext set) := by
  unfold addVarContext
  refine .bind S (.getS S) fun s => .bind S (.unwrapM S _ _) fun m => ?_
  exact Keeps.modS fun s => hctx s m

theorem setParams_of (i : Nat) (as : List Str) : Keeps R Q (setParams i as) := by
  induction as generalizing i with
  | nil => exact .pure S _
  | cons a as ih =>
    unfold setParams
    refine .ite (.pure S _) (.bind S (addVarContext_of S hctx _) fun _ => ih _)

theorem popContext_of : Keeps R Q popContext := by
  unfold popContext
  refine .bind S (.getS S) fun s => .bind S (.unwrapM S _ _) fun p => ?_
  obtain ⟨id, m⟩ := p
  exact .bind S (Keeps.modS fun s => hctx s m) fun _ => .pure S _

theorem func_of (hrec : ∀ l, Keeps R Q (rec l)) (c : SimpleCommand) :
    Keeps R Q (evalFunction rec c) := by
  unfold evalFunction
  refine .bind S (.getS S) fun s => ?_
  split
  · exact .throwE S _
  · next body _ =>
    refine .bind S (Keeps.modS fun s => hctx s _) fun _ => ?_
    refine .bind S (addVarContext_of S hctx _) fun _ => ?_
    refine .bind S (setParams_of S hctx _ _) fun _ => ?_
    refine .bind S ?_ fun _ => .bind S (popContext_of S hctx) fun _ => .pure S _
    unfold evalCompound
    split
    · exact .bind S (.tryE (hrec _)) fun _ => .pure S _
    · exact .panicM S _

theorem ctxFile_of (ht : ∀ s e, Common e = true → R s { s with trace := e :: s.trace })
    (hrec : ∀ l, Keeps R Q (rec l)) (file ns : Str) :
    Keeps R Q (createContextFromFile w rec file >>= fun id => addContextM ns id) := by
  refine .bind S ?_ fun id => .bind S (.getS S) fun s => Keeps.modS fun s => hctx s _
  unfold createContextFromFile readFileM
  refine .bind S (.bind S (.getS S) fun s => ?_) fun r => ?_
  · exact .bind S (Keeps.modS fun s => ht s _ rfl) fun _ => .pure S _
  · have hcc : ∀ cc, Keeps R Q (evalCC rec cc) := fun cc => by
      cases cc with
      | none => exact .pure S _
      | some l => exact hrec l
    have h2 := popContext_of S hctx
    split
    · exact .throwE S _
    · exact .throwE S _
    · split
      · exact .throwE S _
      · refine .bind S (Keeps.modS fun s => hctx s _) fun _ => ?_
        refine .bind S (.tryE (hcc _)) fun r => ?_
        cases r with
        | ok a => exact h2
        | error e => exact .throwE S _

end Ctx

/-! ## The trace only grows -/

/-- `s'` is reached from `s` and has recorded at least its events. -/
def Grows (s s' : Sh) : Prop := ∃ l, s'.trace = l ++ s.trace

theorem Grows.seq : Seq Grows Grows where
  refl s := ⟨[], rfl⟩
  trans := fun ⟨l, h⟩ ⟨l', h'⟩ => ⟨l' ++ l, by rw [h', h, List.append_assoc]⟩
  rq := id
  rqq := fun ⟨l, h⟩ ⟨l', h'⟩ => ⟨l' ++ l, by rw [h', h, List.append_assoc]⟩

theorem Grows.of_eq {s s' : Sh} (h : s'.trace = s.trace) : Grows s s' := ⟨[], by simpa using h⟩

theorem growsFrame (w : World) : Frame w (fun _ => True) Grows Grows where
  toSeq := Grows.seq
  trace _ e _ := ⟨[e], rfl⟩
  saved _ loc := ⟨[.saveHistory loc], rfl⟩
  masked _ _ := .of_eq rfl
  handlers _ := .of_eq rfl
  createJob _ _ _ _ := .of_eq rfl
  deleteJob _ _ := .of_eq rfl
  resumeJob _ _ _ := .of_eq rfl
  scan _ _ _ _ _ := .of_eq rfl
  waited _ _ _ _ := ⟨[_], rfl⟩
  gotSigchld _ _ := .of_eq rfl
  exitStatus _ _ := .of_eq rfl
  subst _ x _ := subst_of Grows.seq (fun _ _ _ => .of_eq rfl) (fun _ e _ => ⟨[e], rfl⟩) x
  fork _ b id procs _ :=
    fork_of Grows.seq (fun _ _ _ => .of_eq rfl) (fun _ e _ => ⟨[e], rfl⟩)
      (fun _ _ _ pid e evs _ => ⟨[.spawn pid e evs], rfl⟩) b id _ procs 0 _ _
  setEnv _ _ _ := .of_eq rfl
  aliases _ _ := .of_eq rfl
  cwd _ _ p _ := ⟨[.chdir p], rfl⟩
  addVar _ _ _ _ := .of_eq rfl
  addVarPos _ _ _ _ _ := .of_eq rfl
  addFunction _ _ _ := .of_eq rfl
  removeVar _ _ := .of_eq rfl
  removeFunction _ _ := .of_eq rfl
  removeContext _ _ := .of_eq rfl
  addVarReadonly _ _ _ _ := .of_eq rfl
  setVarReadonly _ _ _ _ := .of_eq rfl
  envVar _ _ _ _ _ _ := .of_eq rfl
  envFun _ _ _ _ _ := .of_eq rfl
  nameSelf _ _ _ _ := .of_eq rfl
  func _ c h := func_of Grows.seq (fun _ _ => .of_eq rfl) h.2 c
  ctxFile _ file ns h :=
    ctxFile_of Grows.seq (fun _ _ => .of_eq rfl) (fun _ e _ => ⟨[e], rfl⟩) h.2 file ns

/-- Evaluation only appends events. -/
theorem evalFuel_grows (w : World) (n : Nat) (l : List AndOr) : Keeps Grows Grows (evalFuel w n l) :=
  (growsFrame w).evalFuel (fun _ => trivial) n l

/-! ## The context stack -/

/-- Nothing but the contents of contexts and the namespace table changed; a name may now refer to a
context on the stack. -/
structure Shape (m m' : CtxMgr) : Prop where
  stack : m'.stack = m.stack
  next : m'.next = m.next
  exported : ∀ p ∈ m'.exported, p ∈ m.exported ∨ p.2 ∈ m.stack
  ro : (∀ i, (m.heap i).roFuncs = []) → ∀ i, (m'.heap i).roFuncs = []

namespace Shape

theorem refl (m : CtxMgr) : Shape m m := ⟨rfl, rfl, fun _ h => .inl h, id⟩

theorem setCtx (m : CtxMgr) (id : Nat) (c : Ctx) (h : (m.heap id).roFuncs = [] → c.roFuncs = []) :
    Shape m (m.setCtx id c) where
  stack := rfl
  next := rfl
  exported _ h := .inl h
  ro hr i := by
    rw [CtxMgr.setCtx_heap]
    split
    · exact h (hr id)
    · exact hr i

theorem addSet {m : CtxMgr} {id : Nat} {set : Str} {c : Ctx} (h : (m.heap id).addSet set = some c) :
    Shape m (m.setCtx id c) := by
  unfold Ctx.addSet at h
  rcases splitSet set with ⟨n, v⟩
  simp only at h
  split at h
  · cases h; exact setCtx _ _ _ fun h => h
  · cases h

theorem addSetReadonly {m : CtxMgr} {id : Nat} {set : Str} {c : Ctx}
    (h : (m.heap id).addSetReadonly set = some c) : Shape m (m.setCtx id c) := by
  unfold Ctx.addSetReadonly at h
  rcases splitSet set with ⟨n, v⟩
  simp only at h
  split at h
  · cases h; exact setCtx _ _ _ fun h => h
  · cases h

theorem addFun (m : CtxMgr) (id : Nat) (f : Str) (b : FunctionBody) :
    Shape m (m.setCtx id ((m.heap id).addFunction f b).1) := by
  refine setCtx _ _ _ fun h => ?_
  unfold Ctx.addFunction
  split <;> exact h

theorem addVar {m m' : CtxMgr} {set : Str} (h : m.addVar set = some m') : Shape m m' := by
  unfold CtxMgr.addVar at h
  simp only at h
  split at h
  · split at h
    · split at h
      · cases h; exact refl m
      · rw [Option.map_eq_some_iff] at h; obtain ⟨c, hc, rfl⟩ := h; exact addSet hc
    · cases h; exact refl m
  · rw [Option.bind_eq_some_iff] at h
    obtain ⟨_, _, h⟩ := h
    rw [Option.map_eq_some_iff] at h; obtain ⟨c, hc, rfl⟩ := h; exact addSet hc

theorem addVarPos {m m' : CtxMgr} {set : Str} {pos : Nat} (h : m.addVarPos set pos = some m') :
    Shape m m' := by
  unfold CtxMgr.addVarPos at h
  rw [Option.bind_eq_some_iff] at h
  obtain ⟨_, _, h⟩ := h
  rw [Option.map_eq_some_iff] at h; obtain ⟨c, hc, rfl⟩ := h; exact addSet hc

theorem addFunction (m : CtxMgr) (f : Str) (b : FunctionBody) : Shape m (m.addFunction f b).1 := by
  unfold CtxMgr.addFunction
  split
  · exact addFun m _ f b
  · split
    · exact addFun m _ f b
    · exact refl m

theorem removeVar (m : CtxMgr) (x : Str) : Shape m (m.removeVar x) := by
  unfold CtxMgr.removeVar
  split
  · split
    · exact setCtx _ _ _ fun h => h
    · exact refl m
  · split
    · exact setCtx _ _ _ fun h => h
    · exact refl m

theorem removeFunction (m : CtxMgr) (x : Str) : Shape m (m.removeFunction x) := by
  unfold CtxMgr.removeFunction
  have : ∀ id y, Shape m (m.setCtx id ((m.heap id).removeFunction y)) := fun id y =>
    setCtx _ _ _ fun h => by simp [Ctx.removeFunction, h]
  split
  · split
    · exact this _ _
    · exact refl m
  · split
    · exact this _ _
    · exact refl m

theorem removeContext (m : CtxMgr) (x : Str) : Shape m (m.removeContext x) where
  stack := rfl
  next := rfl
  exported _ h := .inl (List.mem_filter.1 h).1
  ro h := h

theorem addContext (m : CtxMgr) (ns : Str) (id : Nat) (h : id ∈ m.stack) :
    Shape m (m.addContext ns id) where
  stack := rfl
  next := rfl
  exported p hp := by
    rcases List.mem_cons.1 hp with rfl | hp
    · exact .inr h
    · exact .inl (List.mem_filter.1 hp).1
  ro h := h

theorem markReadonly {m m' : CtxMgr} {id : Nat} {x : Str} (h : m.markReadonly id x = some m') :
    Shape m m' := by
  unfold CtxMgr.markReadonly at h
  rw [Option.map_eq_some_iff] at h
  obtain ⟨v, _, rfl⟩ := h
  exact setCtx _ _ _ fun h => h

theorem addVarReadonly {m m' : CtxMgr} {set : Str} (h : m.addVarReadonly set = some m') :
    Shape m m' := by
  unfold CtxMgr.addVarReadonly at h
  simp only at h
  split at h
  · split at h
    · rw [Option.map_eq_some_iff] at h; obtain ⟨c, hc, rfl⟩ := h; exact addSetReadonly hc
    · cases h; exact refl m
  · split at h
    · rw [Option.map_eq_some_iff] at h; obtain ⟨c, hc, rfl⟩ := h; exact addSetReadonly hc
    · rw [Option.bind_eq_some_iff] at h
      obtain ⟨_, _, h⟩ := h
      rw [Option.map_eq_some_iff] at h; obtain ⟨c, hc, rfl⟩ := h; exact addSetReadonly hc

theorem setVarReadonly {m m' : CtxMgr} {x : Str} (h : m.setVarReadonly x = some m') :
    Shape m m' := by
  unfold CtxMgr.setVarReadonly at h
  split at h
  · split at h
    · exact markReadonly h
    · cases h; exact refl m
  · split at h
    · exact markReadonly h
    · rw [Option.bind_eq_some_iff] at h
      obtain ⟨_, _, h⟩ := h
      exact markReadonly h

theorem good {m m' : CtxMgr} (h : Shape m m') (g : Good m) : Good m' where
  nonempty := by rw [h.stack]; exact g.nonempty
  nodup := by rw [h.stack]; exact g.nodup
  stackLt i hi := by rw [h.next]; rw [h.stack] at hi; exact g.stackLt i hi
  exportedLt p hp := by
    rw [h.next]
    rcases h.exported p hp with hp | hp
    · exact g.exportedLt p hp
    · exact g.stackLt _ hp
  noRo := h.ro g.noRo

end Shape

theorem good_pushNew {m : CtxMgr} (g : Good m) : Good m.pushNew where
  nonempty := by simp [CtxMgr.pushNew]
  nodup := by
    simp only [CtxMgr.pushNew, List.nodup_cons]
    exact ⟨fun h => absurd (g.stackLt _ h) (Nat.lt_irrefl _), g.nodup⟩
  stackLt i hi := by
    simp only [CtxMgr.pushNew, List.mem_cons] at hi ⊢
    rcases hi with rfl | hi
    · exact Nat.lt_succ_self _
    · exact Nat.lt_succ_of_lt (g.stackLt i hi)
  exportedLt p hp := Nat.lt_succ_of_lt (g.exportedLt p hp)
  noRo i := by
    simp only [CtxMgr.pushNew]
    split
    · rfl
    · exact g.noRo i

theorem pop_eq {m m' : CtxMgr} {id : Nat} (h : m.pop = some (id, m')) :
    m.stack = id :: m'.stack ∧ m'.stack ≠ [] ∧ m' = { m with stack := m'.stack } := by
  unfold CtxMgr.pop at h
  split at h
  · next e => cases h; rw [e]; exact ⟨rfl, by simp, rfl⟩
  · cases h

theorem good_pop {m m' : CtxMgr} {id : Nat} (h : m.pop = some (id, m')) (g : Good m) : Good m' := by
  obtain ⟨h1, h2, h3⟩ := pop_eq h
  have hn := g.nodup
  rw [h1] at hn
  rw [h3]
  exact {
    nonempty := h2
    nodup := (List.nodup_cons.1 hn).2
    stackLt := fun i hi => g.stackLt i (by rw [h1]; exact List.mem_cons_of_mem _ hi)
    exportedLt := g.exportedLt
    noRo := g.noRo }

/-- The stack after is the one before, with some contexts on top; none when `eq` holds. -/
def Stacked (eq : Prop) (s s' : Sh) : Prop :=
  Good s.ctx → Good s'.ctx ∧ s.ctx.next ≤ s'.ctx.next ∧
    ∃ l, s'.ctx.stack = l ++ s.ctx.stack ∧ (eq → l = [])

/-- No readable program file fails when evaluated. -/
def FilesOk (w : World) (rec : List AndOr → M Int) : Prop :=
  ∀ tr p t cc, w.readFile tr p = .text t → parse t = some cc →
    ∀ s e s', evalCC rec cc s ≠ (.err e, s')

namespace Stacked

variable {eq : Prop}

theorem seq : Seq (Stacked eq) (fun _ _ => True) where
  refl s g := ⟨g, Nat.le_refl _, [], rfl, fun _ => rfl⟩
  trans := fun h h' g => by
    obtain ⟨g1, n1, l, e1, q1⟩ := h g
    obtain ⟨g2, n2, l', e2, q2⟩ := h' g1
    refine ⟨g2, Nat.le_trans n1 n2, l' ++ l, by rw [e2, e1, List.append_assoc], fun q => ?_⟩
    rw [q1 q, q2 q]; rfl
  rq _ := trivial
  rqq _ _ := trivial

theorem of_ctx {s s' : Sh} (h : s'.ctx = s.ctx) : Stacked eq s s' := fun g =>
  ⟨h ▸ g, by rw [h]; exact Nat.le_refl _, [], by rw [h]; rfl, fun _ => rfl⟩

theorem of_shape {s s' : Sh} (h : Shape s.ctx s'.ctx) : Stacked eq s s' := fun g =>
  ⟨h.good g, by rw [h.next]; exact Nat.le_refl _, [], h.stack, fun _ => rfl⟩

/-- A push, something that keeps the stack, and a pop. -/
theorem push_pop {s0 s1 s2 s3 : Sh} {id : Nat} {m : CtxMgr} (h0 : s1.ctx = s0.ctx.pushNew)
    (h1 : Stacked eq s1 s2) (h2 : s2.ctx.pop = some (id, m)) (h3 : s3.ctx = m) :
    Stacked eq s0 s3 := fun g => by
  have g1 : Good s1.ctx := by rw [h0]; exact good_pushNew g
  obtain ⟨g2, n2, l, e2, q2⟩ := h1 g1
  obtain ⟨p1, p2, p3⟩ := pop_eq h2
  have hn : m.next = s2.ctx.next := by rw [p3]
  refine ⟨by rw [h3]; exact good_pop h2 g2, ?_, ?_⟩
  · rw [h3, hn]
    rw [h0] at n2
    exact Nat.le_trans (Nat.le_succ _) n2
  · rw [h3]
    rw [p1, h0] at e2
    cases l with
    | nil =>
      simp only [List.nil_append, CtxMgr.pushNew, List.cons.injEq] at e2
      exact ⟨[], e2.2, fun _ => rfl⟩
    | cons a l =>
      simp only [List.cons_append, CtxMgr.pushNew, List.cons.injEq] at e2
      refine ⟨l ++ [s0.ctx.next], by rw [e2.2]; simp, fun q => ?_⟩
      cases q2 q

theorem addVarContext (set : Str) : Keeps (Stacked eq) (fun _ _ => True) (Rsh.addVarContext set) := by
  intro s
  unfold Rsh.addVarContext
  simp only [run_getS_bind]
  cases h : s.ctx.addVar set with
  | none => trivial
  | some m => exact of_shape (Shape.addVar h)

theorem setParams (i : Nat) (as : List Str) :
    Keeps (Stacked eq) (fun _ _ => True) (Rsh.setParams i as) := by
  induction as generalizing i with
  | nil => exact .pure seq _
  | cons a as ih =>
    unfold Rsh.setParams
    exact .ite (.pure seq _) (.bind seq (addVarContext _) fun _ => ih _)

theorem evalCompound (hrec : ∀ l, Keeps (Stacked eq) (fun _ _ => True) (rec l))
    (cc : CompoundCommand) : Keeps (Stacked eq) (fun _ _ => True) (Rsh.evalCompound rec cc) := by
  unfold Rsh.evalCompound
  split
  · exact .bind seq (.tryE (hrec _)) fun _ => .pure seq _
  · exact .panicM seq _

/-- A computation between a push and a pop. -/
theorem bracket {m : M α} (hm : Keeps (Stacked eq) (fun _ _ => True) m) (s : Sh)
    (f : α → M β) (hf : ∀ a s1, Post (Stacked eq) (fun _ _ => True) s (f a s1) ∨
      ∃ s2 id mm, s1.ctx.pop = some (id, mm) ∧ s2.ctx = mm ∧
        ((∃ b, f a s1 = (.ok b, s2))))
    (herr : ∀ e s1, m { s with ctx := s.ctx.pushNew } ≠ (.err e, s1)) :
    Post (Stacked eq) (fun _ _ => True) s ((m >>= f) { s with ctx := s.ctx.pushNew }) := by
  have h := hm { s with ctx := s.ctx.pushNew }
  rw [run_bind]
  rcases hr : m { s with ctx := s.ctx.pushNew } with ⟨o, s1⟩
  rw [hr] at h
  cases o with
  | ok a =>
    simp only
    rcases hf a s1 with h' | ⟨s2, id, mm, hp, hc, b, hb⟩
    · exact h'
    · rw [hb]
      exact push_pop (s1 := { s with ctx := s.ctx.pushNew }) rfl h hp hc
  | err e => exact absurd hr (herr e s1)
  | _ => trivial

theorem popContext_cases (s1 : Sh) : (∃ k, popContext s1 = (.panic k, s1)) ∨
    ∃ id mm, s1.ctx.pop = some (id, mm) ∧ popContext s1 = (.ok id, { s1 with ctx := mm }) := by
  unfold popContext
  simp only [run_getS_bind]
  cases h : s1.ctx.pop with
  | none => exact .inl ⟨_, rfl⟩
  | some p => exact .inr ⟨p.1, p.2, rfl, rfl⟩

theorem func (hrec : ∀ l, Keeps (Stacked eq) (fun _ _ => True) (rec l)) (c : SimpleCommand) :
    Keeps (Stacked eq) (fun _ _ => True) (evalFunction rec c) := by
  intro s
  unfold evalFunction
  simp only [run_getS_bind]
  cases hf : s.ctx.getFunction c.name with
  | none => exact seq.refl s
  | some body =>
    simp only [pushContextNew, run_modS_bind]
    have hm : Keeps (Stacked eq) (fun _ _ => True) (do
        Rsh.addVarContext (cs!"0=" ++ c.name)
        Rsh.setParams 1 c.words
        Rsh.evalCompound rec body.cc) :=
      .bind seq (addVarContext _) fun _ => .bind seq (setParams _ _) fun _ => evalCompound hrec _
    have hnoerr : ∀ s e s1, (do
        Rsh.addVarContext (cs!"0=" ++ c.name)
        Rsh.setParams 1 c.words
        Rsh.evalCompound rec body.cc : M Unit) s ≠ (.err e, s1) := by
      have hA : ∀ set s e s1, Rsh.addVarContext set s ≠ (.err e, s1) := by
        intro set s e s1
        unfold Rsh.addVarContext
        simp only [run_getS_bind]
        cases s.ctx.addVar set <;> simp [setCtxMgr]
      have hB : ∀ as i s e s1, Rsh.setParams i as s ≠ (.err e, s1) := by
        intro as
        induction as with
        | nil => intro i s e s1 h; cases h
        | cons a as ih =>
          intro i s e s1
          unfold Rsh.setParams
          split
          · intro h; cases h
          · rw [run_bind]
            rcases hr : Rsh.addVarContext (natStr i ++ '=' :: a) s with ⟨o, s2⟩
            cases o with
            | ok u => exact ih _ _ _ _
            | err e' => exact absurd hr (hA _ _ _ _)
            | _ => simp
      have hC : ∀ cc s e s1, Rsh.evalCompound rec cc s ≠ (.err e, s1) := by
        intro cc s e s1
        unfold Rsh.evalCompound
        split
        · next l =>
          rw [run_bind, run_tryE]
          rcases rec l s with ⟨o, s2⟩
          cases o <;> simp
        · simp
      intro s e s1
      rw [run_bind]
      rcases hr : Rsh.addVarContext (cs!"0=" ++ c.name) s with ⟨o, s2⟩
      cases o with
      | ok u =>
        simp only
        rw [run_bind]
        rcases hr2 : Rsh.setParams 1 c.words s2 with ⟨o, s3⟩
        cases o with
        | ok u => exact hC _ _ _ _
        | err e' => exact absurd hr2 (hB _ _ _ _ _)
        | _ => simp
      | err e' => exact absurd hr (hA _ _ _ _)
      | _ => simp
    have := bracket hm s (fun _ => popContext >>= fun _ => pure ()) (fun a s1 => by
      rcases popContext_cases s1 with ⟨k, hk⟩ | ⟨id, mm, hp, hk⟩
      · left; rw [run_bind_panic hk]; trivial
      · right; exact ⟨{ s1 with ctx := mm }, id, mm, hp, rfl, (), by rw [run_bind_ok hk]; rfl⟩)
      (fun e s1 => hnoerr _ e s1)
    simpa only [bind_assoc] using this

theorem ctxFile (hP : eq → FilesOk w rec)
    (hrec : ∀ l, Keeps (Stacked eq) (fun _ _ => True) (rec l)) (file ns : Str) :
    Keeps (Stacked eq) (fun _ _ => True)
      (createContextFromFile w rec file >>= fun id => addContextM ns id) := by
  intro s0
  unfold createContextFromFile readFileM
  simp only [bind_assoc, run_getS_bind, emit, run_modS_bind, pure_bind]
  have hstep : Stacked eq s0 { s0 with trace := .readFile file :: s0.trace } := of_ctx rfl
  refine Keeps.post_trans seq hstep ?_
  generalize { s0 with trace := Event.readFile file :: s0.trace } = s
  cases hr : w.readFile s0.trace file with
  | missing => exact seq.refl s
  | notUtf8 => exact seq.refl s
  | text t =>
    simp only
    cases hp : parse t with
    | none => exact seq.refl s
    | some cc =>
      simp only [bind_assoc, pushContextNew, run_modS_bind]
      have hcc : Keeps (Stacked eq) (fun _ _ => True) (evalCC rec cc) := by
        cases cc with
        | none => exact .pure seq _
        | some l => exact hrec l
      have h := hcc { s with ctx := s.ctx.pushNew }
      rw [run_bind, run_tryE]
      rcases hev : evalCC rec cc { s with ctx := s.ctx.pushNew } with ⟨o, s1⟩
      rw [hev] at h
      cases o with
      | ok a =>
        simp only
        rcases popContext_cases s1 with ⟨k, hk⟩ | ⟨id, mm, hp, hk⟩
        · rw [run_bind_panic hk]; trivial
        · rw [run_bind_ok hk]
          have h2 : Stacked eq s { s1 with ctx := mm } :=
            push_pop (s1 := { s with ctx := s.ctx.pushNew }) rfl h hp rfl
          intro g
          obtain ⟨g1, n1, l, e1, q1⟩ := h2 g
          have gs1 : Good s1.ctx := (h (good_pushNew g)).1
          have hid : id < mm.next := by
            obtain ⟨p1, p2, p3⟩ := pop_eq hp
            have : mm.next = s1.ctx.next := by rw [p3]
            rw [this]
            exact gs1.stackLt id (by rw [p1]; exact List.mem_cons_self)
          refine ⟨?_, n1, l, e1, q1⟩
          exact {
            nonempty := g1.nonempty
            nodup := g1.nodup
            stackLt := g1.stackLt
            exportedLt := fun p hp => by
              rcases List.mem_cons.1 hp with rfl | hp
              · exact hid
              · exact g1.exportedLt p (List.mem_filter.1 hp).1
            noRo := g1.noRo }
      | err e =>
        simp only [run_throwE_bind]
        intro g
        obtain ⟨g1, n1, l, e1, q1⟩ := h (good_pushNew g)
        refine ⟨g1, Nat.le_trans (Nat.le_succ _) n1, l ++ [s.ctx.next], ?_, fun q => ?_⟩
        · rw [e1]; simp [CtxMgr.pushNew]
        · exact absurd hev (hP q _ _ _ _ hr hp _ _ _)
      | _ => trivial

/-- Every evaluation keeps the stack up to leaked contexts. -/
theorem frame (w : World) (eq : Prop) :
    Frame w (fun rec => eq → FilesOk w rec) (Stacked eq) (fun _ _ => True) where
  toSeq := seq
  trace _ _ _ := of_ctx rfl
  masked _ _ := of_ctx rfl
  handlers _ := of_ctx rfl
  createJob _ _ _ _ := of_ctx rfl
  deleteJob _ _ := of_ctx rfl
  resumeJob _ _ _ := of_ctx rfl
  scan _ _ _ _ _ := of_ctx rfl
  waited _ _ _ _ := of_ctx rfl
  gotSigchld _ _ := of_ctx rfl
  exitStatus _ _ := of_ctx rfl
  subst _ x _ := subst_of seq (fun _ _ _ => of_ctx rfl) (fun _ _ _ => of_ctx rfl) x
  fork _ b id procs _ :=
    fork_of seq (fun _ _ _ => of_ctx rfl) (fun _ _ _ => of_ctx rfl)
      (fun _ _ _ _ _ _ _ => of_ctx rfl) b id _ procs 0 _ _
  setEnv _ _ _ := of_ctx rfl
  aliases _ _ := of_ctx rfl
  cwd _ _ _ _ := of_ctx rfl
  addVar _ _ _ h := of_shape (Shape.addVar h)
  addVarPos _ _ _ _ h := of_shape (Shape.addVarPos h)
  addFunction _ f b := of_shape (Shape.addFunction _ f b)
  removeVar _ x := of_shape (Shape.removeVar _ x)
  removeFunction _ x := of_shape (Shape.removeFunction _ x)
  removeContext _ x := of_shape (Shape.removeContext _ x)
  addVarReadonly _ _ _ h := of_shape (Shape.addVarReadonly h)
  setVarReadonly _ _ _ h := of_shape (Shape.setVarReadonly h)
  envVar _ _ _ _ _ h := of_shape (Shape.addSet h)
  envFun s id f b _ := of_shape (Shape.addFun s.ctx id f b)
  nameSelf s id ns h := of_shape (Shape.addContext s.ctx ns id (List.mem_of_mem_head? h))
  func _ c h := func h.2 c
  ctxFile _ file ns h := ctxFile h.1 h.2 file ns

end Stacked

/-- Evaluation keeps the context stack, up to contexts leaked on top of it. -/
theorem evalFuel_stacked (w : World) (n : Nat) (l : List AndOr) :
    Keeps (Stacked False) (fun _ _ => True) (evalFuel w n l) :=
  (Stacked.frame w False).evalFuel (fun _ h => h.elim) n l

/-- Evaluation keeps the context stack when no program file fails. -/
theorem evalFuel_balanced (w : World) (hw : ∀ n, FilesOk w (evalFuel w n)) (n : Nat) (l : List AndOr) :
    Keeps (Stacked True) (fun _ _ => True) (evalFuel w n l) :=
  (Stacked.frame w True).evalFuel (fun n _ => hw n) n l

end Rsh
