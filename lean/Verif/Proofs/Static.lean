import Verif.Proofs.Pipeline
import Verif.Proofs.Session

/-!
# What evaluation never changes: descriptors, process attributes, recorded signal modes
-/

namespace Rsh

open Spec

/-- Attributes of the process that commands leave alone; descriptors are restored if `p`. -/
structure Static (p : Prop) (s s' : Sh) : Prop where
  forked : s'.forked = s.forked
  held : s'.held = s.held
  ownGroup : s'.ownGroup = s.ownGroup
  fds : p → StdFds s.fds → s'.fds = s.fds

namespace Static

theorem seq (p : Prop) : Seq (Static p) (fun _ _ => True) where
  refl _ := ⟨rfl, rfl, rfl, fun _ _ => rfl⟩
  trans h1 h2 := ⟨h2.forked.trans h1.forked, h2.held.trans h1.held, h2.ownGroup.trans h1.ownGroup,
    fun hp h => (h2.fds hp (by rw [h1.fds hp h]; exact h)).trans (h1.fds hp h)⟩
  rq _ := trivial
  rqq _ _ := trivial

theorem same {p : Prop} {s s' : Sh} (h1 : s'.forked = s.forked) (h2 : s'.held = s.held)
    (h3 : s'.ownGroup = s.ownGroup) (h4 : s'.fds = s.fds) : Static p s s' := ⟨h1, h2, h3, fun _ _ => h4⟩

end Static

theorem runChild_cases (w : World) (m : M α) (s : Sh) :
    (∃ e evs, runChild w m s = (.ok (e, evs), s)) ∨ runChild w m s = (.deep, s) := by
  unfold runChild
  rcases m (childStart w s) with ⟨o, s1⟩
  simp only
  split
  · exact .inl ⟨_, _, rfl⟩
  · exact .inr rfl

/-- One round of the fork loop, whether `fork` succeeds or not. -/
theorem forkStep_fds (w : World) (rec : List AndOr → M Int) (b : Bool) (id total : Nat)
    (p : Process) (c : SimpleCommand) (rest : List (Process × SimpleCommand)) (count : Nat)
    (pip : Int × Int) {B : FdTable} (std : StdFds B) {s : Sh}
    (src : Option (Int × Nat)) (dst : Option (Int × Int × Nat)) (ok : StageOk B src dst)
    (hpip : PipOk dst pip) (hs : s.fds = stageFds B src dst) :
    (forkStep w rec b id total p c rest count ((src.map Prod.fst).getD (-1)) pip s).1 = .deep ∨
    ∃ jc tr, forkStep w rec b id total p c rest count ((src.map Prod.fst).getD (-1)) pip s =
      forkLoop w rec b id total rest (count + 1) pip pip.1 { s with
        fds := stageFds B (dst.map fun d => (d.1, d.2.2)) none, jc := jc, trace := tr } := by
  have hclose := closePrev_run ok
  have hclose2 := closeNext_run std ok hpip
  -- what follows the fork
  have htail : ∀ (jc : JobControl) (tr : List Event),
      ((if 0 ≤ (src.map Prod.fst).getD (-1) then closeU ((src.map Prod.fst).getD (-1)) else pure () : M Unit)
        >>= fun _ => closeM pip.2 >>= fun _ =>
      forkLoop w rec b id total rest (count + 1) pip pip.1 : M Unit) { s with jc := jc, trace := tr } =
      forkLoop w rec b id total rest (count + 1) pip pip.1 { s with
        fds := stageFds B (dst.map fun d => (d.1, d.2.2)) none, jc := jc, trace := tr } := by
    intro jc tr
    refine (run_bind_ok (hclose { s with jc := jc, trace := tr } hs) _).trans ?_
    obtain ⟨r, hr⟩ := hclose2 { s with jc := jc, trace := tr, fds := stageFds B none dst } rfl
    exact run_bind_ok hr _
  have assoc : forkStep w rec b id total p c rest count ((src.map Prod.fst).getD (-1)) pip s =
      ((match w.fork s.trace with
        | none => emit .forkFailed
        | some pid => runChild w (pipelineChild w rec b id pip ((src.map Prod.fst).getD (-1)) p c) >>= fun q =>
          emit (.spawn pid q.1 q.2) >>= fun _ =>
          modJc (fun jc => (jc.modJob id (setPidAt count pid)).updatePid id pid) : M Unit) >>= fun _ =>
        (if 0 ≤ (src.map Prod.fst).getD (-1) then closeU ((src.map Prod.fst).getD (-1)) else pure () : M Unit)
          >>= fun _ =>
        closeM pip.2 >>= fun _ => forkLoop w rec b id total rest (count + 1) pip pip.1) s := by
    unfold forkStep
    rw [run_getS_bind]
    rcases hf : w.fork s.trace with _ | pid <;> by_cases i1 : 0 ≤ (src.map Prod.fst).getD (-1) <;>
      simp only [i1, if_true, if_false, pure_bind, bind_assoc]
  rw [assoc]
  rcases hf : w.fork s.trace with _ | pid
  · refine .inr ⟨s.jc, .forkFailed :: s.trace, ?_⟩
    rw [← htail s.jc (.forkFailed :: s.trace)]
    simp only [emit]
    rw [run_modS_bind]
  · simp only [bind_assoc]
    rcases runChild_cases w (pipelineChild w rec b id pip ((src.map Prod.fst).getD (-1)) p c) s with ⟨e, evs, hr⟩ | hr
    · refine .inr ⟨(s.jc.modJob id (setPidAt count pid)).updatePid id pid, .spawn pid e evs :: s.trace, ?_⟩
      rw [run_bind_ok hr, emit, run_modS_bind, modJc, run_modS_bind]
      exact htail _ _
    · left
      rw [run_bind, hr]

/-- The descriptors after a computation that may fail but goes on. -/
def FdsAfter (B : FdTable) (r : Out α × Sh) : Prop :=
  match r.1 with
  | .ok _ => r.2.fds = B
  | .err _ => r.2.fds = B
  | _ => True

/-- The fork loop restores the descriptors, whether `fork` succeeds or not. -/
theorem forkLoop_fds (w : World) (rec : List AndOr → M Int) (b : Bool) (id total : Nat)
    (hpipe : ∀ tr, w.pipeOk tr = true) {B : FdTable} (std : StdFds B) :
    ∀ (procs : List (Process × SimpleCommand)) (count : Nat) (src : Option (Int × Nat))
      (pip : Int × Int) (s : Sh), s.fds = stageFds B src none → (procs = [] → src = none) →
      StageOk B src none → total = count + procs.length →
    FdsAfter B (forkLoop w rec b id total procs count pip ((src.map Prod.fst).getD (-1)) s) := by
  intro procs
  induction procs with
  | nil =>
    intro count src pip s hs hnil ok htot
    rw [hnil rfl] at hs
    exact hs
  | cons q rest ih =>
    intro count src pip s hs _ ok htot
    obtain ⟨p, c⟩ := q
    cases rest with
    | nil =>
      have htot' : total = count + 1 := htot
      rw [forkLoop_last _ _ _ _ _ _ _ _ _ _ _ (by omega)]
      rcases forkStep_fds w rec b id total p c [] count (pip.1, -1) std src none ok rfl hs with h | ⟨jc, tr, h⟩
      · unfold FdsAfter; rw [h]; trivial
      · rw [h]; rfl
    | cons q' rest' =>
      have hlen : total = count + (rest'.length + 2) := htot
      obtain ⟨r, wr, hp, hr, hw, hne, _, _, h3⟩ := pipeM_ok (w := w) (s := s) (hpipe s.trace)
      have hstd : ∀ i : Nat, i < 3 → s.fds.has i = true := by
        intro i hi
        rw [hs]
        unfold stageFds
        cases src with
        | none => exact std.std i hi
        | some q =>
          simp only [List.nil_append, List.cons_append]
          rw [FdTable.has_cons, std.std i hi, Bool.or_true]
      obtain ⟨h3r, h3w⟩ := h3 hstd
      have hfree : ∀ fd, s.fds.has fd = false → B.has fd = false ∧ ∀ p k, src = some (p, k) → p ≠ fd := by
        intro fd h
        rw [hs] at h
        unfold stageFds at h
        cases src with
        | none => exact ⟨h, fun _ _ e => by cases e⟩
        | some q =>
          simp only [List.nil_append, List.cons_append] at h
          rw [FdTable.has_cons, Bool.or_eq_false_iff] at h
          refine ⟨h.2, fun p k e => ?_⟩
          cases e
          have := h.1
          simp only [decide_eq_false_iff_not] at this
          exact fun e => this e.symm
      have ok' : StageOk B src (some (r, wr, s.nextPipe)) := by
        refine ⟨ok.srcOk, fun r' wr' k' e => ?_⟩
        cases e
        exact ⟨h3r, h3w, (hfree r hr).1, (hfree wr hw).1, hne, fun p k e =>
          ⟨(hfree r hr).2 p k e, (hfree wr hw).2 p k e⟩⟩
      rw [forkLoop_pipe _ _ _ _ _ _ _ _ _ _ _ (by omega) hp]
      rcases forkStep_fds w rec b id total p c (q' :: rest') count (r, wr) (s := { s with
          fds := (wr, ⟨.pipeW s.nextPipe, false⟩) :: (r, ⟨.pipeR s.nextPipe, false⟩) :: s.fds
          nextPipe := s.nextPipe + 1 }) std src
        (some (r, wr, s.nextPipe)) ok' rfl (by
          show _ :: _ :: s.fds = _
          rw [hs]; rfl) with h | ⟨jc, tr, h⟩
      · unfold FdsAfter; rw [h]; trivial
      · rw [h]
        refine ih (count + 1) (some (r, s.nextPipe)) (r, wr) _ rfl (fun e => by cases e)
          ⟨fun p k e => by cases e; exact ⟨h3r, (hfree r hr).1⟩, fun _ _ _ e => by cases e⟩
          (by rw [hlen, List.length_cons]; omega)

namespace Static

variable {p : Prop}

theorem forkLoop (w : World) (hpipe : p → ∀ tr, w.pipeOk tr = true) (rec : List AndOr → M Int) (b : Bool)
    (id : Nat) (procs : List (Process × SimpleCommand)) :
    Keeps (Static p) (fun _ _ => True) (forkLoop w rec b id procs.length procs 0 (-1, -1) (-1)) := by
  intro s
  have hn : ∀ {s s' : Sh}, s'.forked = s.forked → s'.held = s.held → s'.ownGroup = s.ownGroup → Static False s s' :=
    fun h1 h2 h3 => ⟨h1, h2, h3, fun h => h.elim⟩
  have h1 := fork_of (seq False) (w := w) (rec := rec) (fun _ _ _ => hn rfl rfl rfl)
    (fun _ _ _ => hn rfl rfl rfl) (fun _ _ _ _ _ _ _ => hn rfl rfl rfl)
    b id procs.length procs 0 (-1, -1) (-1) s
  have h2 : p → StdFds s.fds → FdsAfter s.fds (Rsh.forkLoop w rec b id procs.length procs 0 (-1, -1) (-1) s) :=
    fun hp h => forkLoop_fds w rec b id procs.length (hpipe hp) h procs 0 none (-1, -1) s rfl (fun _ => rfl)
      ⟨fun _ _ e => (by cases e), fun _ _ _ e => (by cases e)⟩ (by omega)
  rcases hr : Rsh.forkLoop w rec b id procs.length procs 0 (-1, -1) (-1) s with ⟨o, s'⟩
  rw [hr] at h1 h2
  cases o with
  | ok a => exact ⟨h1.forked, h1.held, h1.ownGroup, h2⟩
  | err a => exact ⟨h1.forked, h1.held, h1.ownGroup, h2⟩
  | _ => trivial

theorem of_expands {s s' : Sh} (h : Expands s s') : Static p s s' := by
  obtain ⟨np, tr, rfl⟩ := h
  exact same rfl rfl rfl rfl

theorem frame (w : World) (hpipe : p → ∀ tr, w.pipeOk tr = true) :
    Frame w (fun _ => True) (Static p) (fun _ _ => True) where
  toSeq := seq p
  trace _ _ _ := same rfl rfl rfl rfl
  masked _ _ := same rfl rfl rfl rfl
  handlers _ := same rfl rfl rfl rfl
  createJob _ _ _ _ := same rfl rfl rfl rfl
  deleteJob _ _ := same rfl rfl rfl rfl
  resumeJob _ _ _ := same rfl rfl rfl rfl
  scan _ _ _ _ _ := same rfl rfl rfl rfl
  waited _ _ _ _ := same rfl rfl rfl rfl
  gotSigchld _ _ := same rfl rfl rfl rfl
  exitStatus _ _ := same rfl rfl rfl rfl
  subst rec x _ := fun s => by
    have h := evalSubshell_expands w rec x s
    rcases hr : evalSubshell w rec x s with ⟨o, s'⟩
    rw [hr] at h
    cases o with
    | ok a => exact of_expands h
    | err a => exact of_expands h
    | _ => trivial
  fork rec b id procs _ := forkLoop w hpipe rec b id procs
  setEnv _ _ _ := same rfl rfl rfl rfl
  aliases _ _ := same rfl rfl rfl rfl
  cwd _ _ _ _ := same rfl rfl rfl rfl
  addVar _ _ _ _ := same rfl rfl rfl rfl
  addVarPos _ _ _ _ _ := same rfl rfl rfl rfl
  addFunction _ _ _ := same rfl rfl rfl rfl
  removeVar _ _ := same rfl rfl rfl rfl
  removeFunction _ _ := same rfl rfl rfl rfl
  removeContext _ _ := same rfl rfl rfl rfl
  addVarReadonly _ _ _ _ := same rfl rfl rfl rfl
  setVarReadonly _ _ _ _ := same rfl rfl rfl rfl
  envVar _ _ _ _ _ _ := same rfl rfl rfl rfl
  envFun _ _ _ _ _ := same rfl rfl rfl rfl
  nameSelf _ _ _ _ := same rfl rfl rfl rfl
  func _ c h := func_of (seq p) (fun _ _ => same rfl rfl rfl rfl) h.2 c
  ctxFile _ file ns h := ctxFile_of (seq p) (fun _ _ => same rfl rfl rfl rfl) (fun _ _ _ => same rfl rfl rfl rfl) h.2 file ns

end Static

/-! ## From the start of a session to a prompt -/

/-- A relation kept by evaluation relates every prompt to the start of the session. -/
theorem Frame.atPrompt {w : World} {R Q : Sh → Sh → Prop} (F : Frame w (fun _ => True) R Q)
    (hctx : ∀ s m, R s { s with ctx := m }) (hint : ∀ s a b, R s { s with scriptName := a, interactive := b })
    (hmode : ∀ s m, R s { s with sigMode := m }) (hdisp : ∀ s d, R s { s with disp := d })
    (hhist : ∀ s a, R s { s with historyLoc := a }) (hjc : ∀ s jc, R s { s with jc := jc })
    (hwaits : ∀ s ws, R s { s with waits := ws }) {s : Sh} (h : AtPrompt w s) :
    ∃ root ppid pid cwd env waits, R (initSh root ppid pid cwd env waits) s := by
  have S := F.toSeq
  induction h with
  | @start root ppid pid cwd env waits n args s h =>
    refine ⟨root, ppid, pid, cwd, env, waits, ?_⟩
    have harg : ∀ as st, Keeps R Q (argLoop as st) := by
      intro as
      induction as with
      | nil => exact fun _ => .pure S _
      | cons a as ih =>
        intro st
        unfold argLoop
        refine .bind S (F.printlnM _) fun _ => ?_
        have h1 : ∀ a, Keeps R Q (setScriptName a) := fun a => .modS fun s => hint s _ _
        have h2 : ∀ a i, Keeps R Q (setInputArgs a i) := fun a i => F.addVarAt _ _
        split
        · exact .panicM S _
        · refine .ite (.ite (.pure S _) (ih _)) (.ite (.bind S (h1 _) fun _ => ih _)
            (.ite (.bind S (h2 _ _) fun _ => ih _) (.ite (.bind S (h1 _) fun _ => ih _) (ih _))))
    have hr := F.readStartup (fun _ => trivial) n
    have hs : ∀ g, Keeps R Q (setSignal g) := fun g => setSignal_of S hmode hdisp g
    have hst : Keeps R Q (startUp w n args) := by
      unfold startUp
      refine .bind S ?_ fun _ => .bind S (.modS fun s => hctx s _) fun _ =>
        .bind S (.bind S (.getS S) fun _ => F.addVarAt _ _) fun _ => .bind S (hr _) fun _ =>
        .bind S (hr _) fun _ => .bind S (hs _) fun _ => .bind S (hs _) fun _ => .bind S (hs _) fun _ =>
        .modS fun s => hhist s _
      unfold parseArgs
      refine .ite (.pure S _) (.bind S (harg _ _) fun st => .ite (.bind S (.modS fun s => hint s _ _)
        fun _ => .bind S (F.printlnM _) fun _ => .pure S _) (.pure S _))
    exact hst.ok h
  | line _ h ih =>
    obtain ⟨a, b, c, d, e, f, ih⟩ := ih
    exact ⟨a, b, c, d, e, f, S.trans ih ((Keeps.bind S F.prompt fun _ =>
      F.interactiveLine (fun _ => trivial) _ _).ok h)⟩
  | interrupted _ h ih =>
    obtain ⟨a, b, c, d, e, f, ih⟩ := ih
    exact ⟨a, b, c, d, e, f, S.trans ih (F.prompt.ok h)⟩
  | sig _ h ih =>
    obtain ⟨a, b, c, d, e, f, ih⟩ := ih
    exact ⟨a, b, c, d, e, f, S.trans ih ((F.deliver (fun _ _ _ _ => hjc _ _) (fun _ _ _ => hjc _ _)
      F.waitForJob _).ok h)⟩
  | waits _ ih =>
    obtain ⟨a, b, c, d, e, f, ih⟩ := ih
    exact ⟨a, b, c, d, e, f, S.trans ih (hwaits _ _)⟩

theorem AtPrompt_static {w : World} {p : Prop} (hpipe : p → ∀ tr, w.pipeOk tr = true) {s : Sh}
    (h : AtPrompt w s) : ∃ root ppid pid cwd env waits, Static p (initSh root ppid pid cwd env waits) s :=
  (Static.frame w hpipe).atPrompt (fun _ _ => .same rfl rfl rfl rfl) (fun _ _ _ => .same rfl rfl rfl rfl)
    (fun _ _ => .same rfl rfl rfl rfl) (fun _ _ => .same rfl rfl rfl rfl) (fun _ _ => .same rfl rfl rfl rfl)
    (fun _ _ => .same rfl rfl rfl rfl) (fun _ _ => .same rfl rfl rfl rfl) h

/-- At a prompt we are in the shell itself. -/
theorem AtPrompt_own {w : World} {s : Sh} (h : AtPrompt w s) :
    s.forked = false ∧ s.held = [] ∧ s.ownGroup = false := by
  obtain ⟨a, b, c, d, e, f, h⟩ := AtPrompt_static (p := False) (fun h => h.elim) h
  exact ⟨h.forked, h.held, h.ownGroup⟩

/-- The descriptors of a freshly started shell. -/
def stdTable : FdTable := [(0, ⟨.orig 0, false⟩), (1, ⟨.orig 1, false⟩), (2, ⟨.orig 2, false⟩)]

theorem stdTable_other {fd : Int} (h0 : fd ≠ 0) (h1 : fd ≠ 1) (h2 : fd ≠ 2) : stdTable.get fd = none := by
  unfold stdTable FdTable.get
  simp [List.lookup, beq_eq_false_iff_ne.2 h0, beq_eq_false_iff_ne.2 h1, beq_eq_false_iff_ne.2 h2]

theorem stdTable_std : StdFds stdTable := ⟨by decide, by decide⟩

/-- At a prompt exactly the three standard descriptors are open. -/
theorem AtPrompt_fds {w : World} (hpipe : ∀ tr, w.pipeOk tr = true) {s : Sh} (h : AtPrompt w s) :
    s.fds = stdTable := by
  obtain ⟨a, b, c, d, e, f, h⟩ := AtPrompt_static (p := True) (fun _ => hpipe) h
  exact h.fds trivial stdTable_std

end Rsh
