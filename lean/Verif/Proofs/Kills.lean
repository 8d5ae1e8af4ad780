import Verif.Proofs.Started
import Verif.Proofs.Jobs
import Verif.Spec.Kills
import Verif.Spec.External

/-!
# The processes that get a signal

A walk through the whole evaluator and `main`: the processes of the jobs in the table are known, hence so are those that
get a signal.
-/

namespace Rsh

open Spec (onlyKnown onlyKnown1)

/-- The processes started in some events. -/
def spawned (tr : List Event) : List Int :=
  tr.filterMap fun e => match e with
    | .spawn pid _ _ => some (pid : Int)
    | _ => none

theorem spawned_append (a b : List Event) : spawned (a ++ b) = spawned a ++ spawned b := List.filterMap_append

mutual
theorem onlyKnown_mono {K K' : List Int} (h : ∀ x ∈ K, x ∈ K') : ∀ es, onlyKnown K es → onlyKnown K' es
  | [], _ => by unfold onlyKnown; trivial
  | e :: es, hk => by
    unfold onlyKnown at hk ⊢
    refine ⟨onlyKnown1_mono h e hk.1, ?_⟩
    refine onlyKnown_mono ?_ es hk.2
    cases e <;> simp only [List.mem_cons] <;> intro x hx <;> first
      | exact h x hx
      | exact hx.imp id (h x)
theorem onlyKnown1_mono {K K' : List Int} (h : ∀ x ∈ K, x ∈ K') : ∀ e, onlyKnown1 K e → onlyKnown1 K' e
  | .kill p, hk => by unfold onlyKnown1 at hk ⊢; exact h p hk
  | .spawn _ _ evs, hk => by unfold onlyKnown1 at hk ⊢; exact onlyKnown_mono h evs hk
  | .subst _ evs, hk => by unfold onlyKnown1 at hk ⊢; exact onlyKnown_mono h evs hk
  | .print _ _, _ | .eprint _ _, _ | .chdir _, _ | .opened _ _, _ | .readFile _, _ | .forkFailed, _ | .waited _, _
  | .saveHistory _, _ | .born, _ => by unfold onlyKnown1; trivial
end

theorem onlyKnown_snoc {K : List Int} {es : List Event} {e : Event} (h1 : onlyKnown K es)
    (h2 : onlyKnown1 (spawned es ++ K) e) : onlyKnown K (es ++ [e]) := by
  induction es generalizing K with
  | nil =>
    unfold onlyKnown
    exact ⟨h2, by unfold onlyKnown; trivial⟩
  | cons x es ih =>
    rw [List.cons_append]
    unfold onlyKnown at h1 ⊢
    refine ⟨h1.1, ih h1.2 (onlyKnown1_mono ?_ e h2)⟩
    intro y hy
    cases x <;> simp only [spawned, List.filterMap_cons, List.mem_append, List.mem_cons] at hy ⊢ <;> first
      | exact hy
      | (rcases hy with (h | h) | h
         · exact .inr (.inl h)
         · exact .inl h
         · exact .inr (.inr h))

/-- What the process knows: the processes started so far, and `X`. -/
def KnownTo (X : List Int) (s : Sh) (p : Int) : Prop := p ∈ spawned s.trace ++ X

/-- The signals sent since `base`. -/
def TrOk (X : List Int) (base : List Event) (s : Sh) : Prop :=
  ∃ new, s.trace = new ++ base ∧ onlyKnown (spawned base ++ X) new.reverse

/-- The id under which a job is filed, its own, and its processes. -/
def jobTags (t : List (Nat × Job)) : List (Nat × Nat × List Int) :=
  t.map fun p => (p.1, p.2.jobId, p.2.processes.map Process.pid)

/-- The jobs that are not held by an enclosing frame have known processes only. -/
def JobsOk (X : List Int) (s : Sh) : Prop :=
  ∀ q ∈ s.jc.table, q.2.jobId = q.1 ∧ (q.1 ∈ s.held ∨ ∀ p ∈ q.2.processes, KnownTo X s p.pid)

variable {X : List Int} {w : World}

theorem KnownTo.mono {s s' : Sh} {p : Int} (h : KnownTo X s p) (hs : ∀ x ∈ spawned s.trace, x ∈ spawned s'.trace) :
    KnownTo X s' p := by
  unfold KnownTo at h ⊢
  rw [List.mem_append] at h ⊢
  exact h.imp (hs p) id

theorem JobsOk.step {s s' : Sh} (h : JobsOk X s)
    (hj : ∀ q ∈ s'.jc.table, ∃ r ∈ s.jc.table, r.1 = q.1 ∧ r.2.jobId = q.2.jobId ∧
      q.2.processes.map Process.pid = r.2.processes.map Process.pid)
    (hh : ∀ i ∈ s.held, i ∈ s'.held) (ht : ∀ x ∈ spawned s.trace, x ∈ spawned s'.trace) : JobsOk X s' := by
  intro q hq
  obtain ⟨r, hr, e1, e2, e3⟩ := hj q hq
  obtain ⟨h1, h2⟩ := h r hr
  refine ⟨by rw [← e1, ← e2]; exact h1, h2.imp (fun h => e1 ▸ hh _ h) fun h p hp => ?_⟩
  have : p.pid ∈ r.2.processes.map Process.pid := by rw [← e3]; exact List.mem_map_of_mem hp
  obtain ⟨p', hp', e⟩ := List.mem_map.1 this
  rw [← e]
  exact (h p' hp').mono ht

theorem JobsOk.same {s s' : Sh} (h : JobsOk X s) (hj : s'.jc = s.jc) (hh : s'.held = s.held)
    (ht : spawned s'.trace = spawned s.trace) : JobsOk X s' :=
  h.step (fun q hq => ⟨q, by rw [← hj]; exact hq, rfl, rfl, rfl⟩) (fun _ hi => by rw [hh]; exact hi)
    (fun _ hx => by rw [ht]; exact hx)

theorem TrOk.event {base : List Event} {s s' : Sh} {e : Event} (h : TrOk X base s) (ht : s'.trace = e :: s.trace)
    (he : onlyKnown1 (spawned s.trace ++ X) e) : TrOk X base s' := by
  obtain ⟨new, hn, hp⟩ := h
  refine ⟨e :: new, by rw [ht, hn]; rfl, ?_⟩
  rw [List.reverse_cons]
  refine onlyKnown_snoc hp (onlyKnown1_mono ?_ e he)
  intro x hx
  rw [hn, spawned_append] at hx
  simp only [spawned, List.filterMap_reverse, List.mem_append, List.mem_reverse] at hx ⊢
  rcases hx with (h | h) | h
  · exact .inl h
  · exact .inr (.inl h)
  · exact .inr (.inr h)

/-- The claim about the state after `m`. -/
def KPost (X : List Int) (base : List Event) (r : Out α × Sh) : Prop :=
  TrOk X base r.2 ∧ match r.1 with
    | .ok _ | .err _ => JobsOk X r.2
    | _ => True

/-- `m` sends signals to known processes only. -/
def KSafe (X : List Int) (m : M α) : Prop := ∀ base s, TrOk X base s → JobsOk X s → KPost X base (m s)

namespace KSafe

theorem pure (a : α) : KSafe X (Pure.pure a : M α) := fun _ _ h1 h2 => ⟨h1, h2⟩
theorem getS : KSafe X Rsh.getS := fun _ _ h1 h2 => ⟨h1, h2⟩
theorem throwE (e : Str) : KSafe X (Rsh.throwE e : M α) := fun _ _ h1 h2 => ⟨h1, h2⟩
theorem panicM (k : PanicKind) : KSafe X (Rsh.panicM k : M α) := fun _ _ h1 _ => ⟨h1, trivial⟩
theorem exitM (c : Int) : KSafe X (Rsh.exitM c : M α) := fun _ _ h1 _ => ⟨h1, trivial⟩
theorem execM (i : ExecImage) : KSafe X (Rsh.execM i : M α) := fun _ _ h1 _ => ⟨h1, trivial⟩
theorem hangM : KSafe X (Rsh.hangM : M α) := fun _ _ h1 _ => ⟨h1, trivial⟩
theorem deepM : KSafe X (Rsh.deepM : M α) := fun _ _ h1 _ => ⟨h1, trivial⟩

theorem unwrapM (k : PanicKind) (o : Option α) : KSafe X (Rsh.unwrapM k o) := by
  cases o with
  | none => exact panicM k
  | some a => exact pure a

theorem bindAt {m : M α} {f : α → M β} {base : List Event} {s : Sh} (hm : KPost X base (m s))
    (hf : ∀ a s1, m s = (.ok a, s1) → TrOk X base s1 → JobsOk X s1 → KPost X base (f a s1)) :
    KPost X base ((m >>= f) s) := by
  rw [run_bind]
  rcases h : m s with ⟨o, s1⟩
  rw [h] at hm
  cases o with
  | ok a => exact hf a s1 h hm.1 hm.2
  | _ => exact hm

theorem bind {m : M α} {f : α → M β} (hm : KSafe X m) (hf : ∀ a, KSafe X (f a)) : KSafe X (m >>= f) :=
  fun base s h1 h2 => bindAt (hm base s h1 h2) fun a s1 _ => hf a base s1

theorem ite {c : Prop} [Decidable c] {a b : M α} (ha : KSafe X a) (hb : KSafe X b) :
    KSafe X (if c then a else b) := by split <;> assumption

theorem tryE {m : M α} (h : KSafe X m) : KSafe X (Rsh.tryE m) := by
  intro base s h1 h2
  rw [run_tryE]
  have h3 := h base s h1 h2
  rcases h : m s with ⟨o, s1⟩
  rw [h] at h3
  cases o <;> exact h3

theorem modS {f : Sh → Sh} (h : ∀ s, (f s).jc = s.jc ∧ (f s).held = s.held ∧ (f s).trace = s.trace) :
    KSafe X (Rsh.modS f) := by
  intro base s h1 h2
  obtain ⟨e1, e2, e3⟩ := h s
  exact ⟨by obtain ⟨new, hn, hp⟩ := h1; exact ⟨new, e3.trans hn, hp⟩, h2.same e1 e2 (congrArg spawned e3)⟩

theorem event {f : Sh → Sh} (e : Sh → Event) (hp : ∀ s, spawned [e s] = [] ∧ ∀ K, onlyKnown1 K (e s))
    (h : ∀ s, (f s).jc = s.jc ∧ (f s).held = s.held ∧ (f s).trace = e s :: s.trace) : KSafe X (Rsh.modS f) := by
  intro base s h1 h2
  obtain ⟨e1, e2, e3⟩ := h s
  exact ⟨h1.event e3 ((hp s).2 _), h2.same e1 e2 (by
    show spawned (f s).trace = _
    rw [e3]
    show spawned ([e s] ++ s.trace) = _
    rw [spawned_append, (hp s).1]; rfl)⟩

/-- An event that neither starts a process nor sends a signal. -/
theorem plain_print (t : Option Chan) (x : Str) : spawned [Event.print t x] = [] ∧ ∀ K, onlyKnown1 K (.print t x) :=
  ⟨rfl, fun _ => by unfold onlyKnown1; trivial⟩

theorem printM (t : Str) : KSafe X (Rsh.printM t) :=
  event _ (fun _ => ⟨rfl, fun _ => by unfold onlyKnown1; trivial⟩) fun _ => ⟨rfl, rfl, rfl⟩
theorem eprintM (t : Str) : KSafe X (Rsh.eprintM t) :=
  event _ (fun _ => ⟨rfl, fun _ => by unfold onlyKnown1; trivial⟩) fun _ => ⟨rfl, rfl, rfl⟩
theorem printlnM (t : Str) : KSafe X (Rsh.printlnM t) := printM _
theorem eprintlnM (t : Str) : KSafe X (Rsh.eprintlnM t) := eprintM _

theorem emitPlain {e : Event} (h1 : spawned [e] = []) (h2 : ∀ K, onlyKnown1 K e) : KSafe X (Rsh.emit e) :=
  event (fun _ => e) (fun _ => ⟨h1, h2⟩) fun _ => ⟨rfl, rfl, rfl⟩

theorem emitReadFile (p : Str) : KSafe X (Rsh.emit (.readFile p)) :=
  emitPlain rfl fun _ => by unfold onlyKnown1; trivial
theorem emitSaveHistory (p : Str) : KSafe X (Rsh.emit (.saveHistory p)) :=
  emitPlain rfl fun _ => by unfold onlyKnown1; trivial
theorem emitPrint (c : Option Chan) (t : Str) : KSafe X (Rsh.emit (.print c t)) :=
  emitPlain rfl fun _ => by unfold onlyKnown1; trivial

theorem interruptsOff : KSafe X Rsh.interruptsOff := modS fun _ => ⟨rfl, rfl, rfl⟩
theorem interruptsOn : KSafe X Rsh.interruptsOn := modS fun _ => ⟨rfl, rfl, rfl⟩
theorem setCtxMgr (m : CtxMgr) : KSafe X (Rsh.setCtxMgr m) := modS fun _ => ⟨rfl, rfl, rfl⟩
theorem pushContextNew : KSafe X Rsh.pushContextNew := modS fun _ => ⟨rfl, rfl, rfl⟩

/-- Close a goal `KSafe X m` by the structure of `m`. -/
macro "ksafe" : tactic => `(tactic| repeat' first
  | assumption
  | with_reducible exact KSafe.pure _
  | with_reducible exact KSafe.getS
  | with_reducible exact KSafe.throwE _
  | with_reducible exact KSafe.panicM _
  | with_reducible exact KSafe.exitM _
  | with_reducible exact KSafe.execM _
  | with_reducible exact KSafe.hangM
  | with_reducible exact KSafe.deepM
  | with_reducible exact KSafe.unwrapM _ _
  | with_reducible exact KSafe.printM _
  | with_reducible exact KSafe.printlnM _
  | with_reducible exact KSafe.eprintM _
  | with_reducible exact KSafe.eprintlnM _
  | with_reducible exact KSafe.interruptsOff
  | with_reducible exact KSafe.interruptsOn
  | with_reducible exact KSafe.setCtxMgr _
  | with_reducible exact KSafe.pushContextNew
  | with_reducible exact KSafe.emitReadFile _
  | with_reducible exact KSafe.emitSaveHistory _
  | with_reducible exact KSafe.emitPrint _ _
  | with_reducible exact KSafe.modS fun _ => ⟨rfl, rfl, rfl⟩
  | with_reducible refine KSafe.bind ?_ fun _ => ?_
  | with_reducible refine KSafe.tryE ?_
  | with_reducible refine KSafe.ite ?_ ?_
  | with_reducible apply_assumption
  | dsimp only
  | split)

/-! ## The wrappers -/

theorem expandVar (h : Held) (x : Str) : KSafe X (Rsh.expandVar h x) := by unfold Rsh.expandVar; ksafe
theorem addVarContext (x : Str) : KSafe X (Rsh.addVarContext x) := by unfold Rsh.addVarContext; ksafe
theorem addVarAt (x : Str) (i : Nat) : KSafe X (Rsh.addVarAt x i) := by unfold Rsh.addVarAt; ksafe
theorem popContext : KSafe X Rsh.popContext := by unfold Rsh.popContext; ksafe
theorem addFunctionM (x : Str) (b : FunctionBody) : KSafe X (Rsh.addFunctionM x b) := by
  unfold Rsh.addFunctionM; ksafe
theorem lookupCommandM (x : Str) : KSafe X (Rsh.lookupCommandM w x) := by unfold Rsh.lookupCommandM; ksafe
theorem addContextM (x : Str) (id : Nat) : KSafe X (Rsh.addContextM x id) := by unfold Rsh.addContextM; ksafe
theorem wordAt (ws : List Str) (i : Nat) : KSafe X (Rsh.wordAt ws i) := unwrapM _ _
theorem readFileM (p : Str) : KSafe X (Rsh.readFileM w p) := by unfold Rsh.readFileM; ksafe

theorem stateOnly {m : M α} (h : ∀ s, (m s).2.jc = s.jc ∧ (m s).2.held = s.held ∧ (m s).2.trace = s.trace) :
    KSafe X m := by
  intro base s h1 h2
  obtain ⟨e1, e2, e3⟩ := h s
  refine ⟨by obtain ⟨new, hn, hp⟩ := h1; exact ⟨new, e3.trans hn, hp⟩, ?_⟩
  split
  · exact h2.same e1 e2 (congrArg spawned e3)
  · exact h2.same e1 e2 (congrArg spawned e3)
  · trivial

theorem setEnv (k v : Str) : KSafe X (Rsh.setEnv k v) := by
  refine stateOnly fun s => ?_
  unfold Rsh.setEnv
  split <;> exact ⟨rfl, rfl, rfl⟩

theorem pipeM : KSafe X (Rsh.pipeM w) := by
  refine stateOnly fun s => ?_
  unfold Rsh.pipeM
  split <;> exact ⟨rfl, rfl, rfl⟩

theorem closeM (fd : Int) : KSafe X (Rsh.closeM fd) := by
  refine stateOnly fun s => ?_
  unfold Rsh.closeM
  split <;> exact ⟨rfl, rfl, rfl⟩

theorem closeU (fd : Int) : KSafe X (Rsh.closeU fd) := by
  have := closeM (X := X) fd
  unfold Rsh.closeU; ksafe

theorem dup2U (a b : Int) : KSafe X (Rsh.dup2U a b) := by
  refine stateOnly fun s => ?_
  unfold Rsh.dup2U
  split
  · exact ⟨rfl, rfl, rfl⟩
  · split <;> exact ⟨rfl, rfl, rfl⟩

theorem openU (ty : RedirectType) (p : Str) : KSafe X (Rsh.openU w ty p) := by
  intro base s h1 h2
  unfold Rsh.openU
  split
  · exact ⟨h1.event rfl (by unfold onlyKnown1; trivial), h2.same rfl rfl rfl⟩
  · exact ⟨h1, trivial⟩

theorem setSignal (g : Nat) : KSafe X (Rsh.setSignal g) := by
  unfold Rsh.setSignal
  ksafe

theorem removeHandlers : KSafe X Rsh.removeHandlers := modS fun _ => ⟨rfl, rfl, rfl⟩

theorem tempExecve (a : Str) (argv : List Str) (env : AMap Str) : KSafe X (Rsh.tempExecve w a argv env) := by
  have := removeHandlers (X := X)
  have := lookupCommandM (X := X) (w := w)
  unfold Rsh.tempExecve; ksafe

/-! ## Jobs -/

/-- A change of the table that keeps ids and processes. -/
theorem modJcTags {f : JobControl → JobControl} (h : ∀ jc, ∀ q ∈ (f jc).table, ∃ r ∈ jc.table, r.1 = q.1 ∧
    r.2.jobId = q.2.jobId ∧ q.2.processes.map Process.pid = r.2.processes.map Process.pid) :
    KSafe X (Rsh.modJc f) :=
  fun _ s h1 h2 => ⟨h1, h2.step (h s.jc) (fun _ hi => hi) fun _ hx => hx⟩

theorem modJobTags {id : Nat} {f : Job → Job} (h1 : ∀ j, (f j).jobId = j.jobId)
    (h2 : ∀ j, (f j).processes.map Process.pid = j.processes.map Process.pid) (jc : JobControl) :
    ∀ q ∈ (jc.modJob id f).table, ∃ r ∈ jc.table, r.1 = q.1 ∧ r.2.jobId = q.2.jobId ∧
      q.2.processes.map Process.pid = r.2.processes.map Process.pid := by
  intro q hq
  obtain ⟨r, hr, e⟩ := List.mem_map.1 hq
  refine ⟨r, hr, ?_⟩
  split at e
  · cases e; exact ⟨rfl, (h1 _).symm, h2 _⟩
  · cases e; exact ⟨rfl, rfl, rfl⟩

theorem deleteTags (id : Nat) (jc : JobControl) : ∀ q ∈ (jc.deleteJob id).table, ∃ r ∈ jc.table, r.1 = q.1 ∧
    r.2.jobId = q.2.jobId ∧ q.2.processes.map Process.pid = r.2.processes.map Process.pid := by
  intro q hq
  have hnote : ∀ j, (JobControl.noteStopped j).jobId = j.jobId := by
    intro j
    unfold JobControl.noteStopped
    repeat' split
    all_goals rfl
  unfold JobControl.deleteJob at hq
  rcases hg : tGet id jc.table with _ | job
  · rw [hg] at hq; exact ⟨q, hq, rfl, rfl, rfl⟩
  · have hm : (id, job) ∈ jc.table := lookup_mem hg
    rw [hg] at hq
    simp only at hq
    split at hq
    · exact ⟨q, (List.mem_filter.1 hq).1, rfl, rfl, rfl⟩
    · split at hq
      · rcases mem_tInsert hq with rfl | hq
        · exact ⟨(id, job), hm, rfl, (hnote job).symm, by
            show (JobControl.noteStopped job).processes.map _ = _
            rw [PidsOk.noteStopped_procs]⟩
        · exact ⟨q, (List.mem_filter.1 hq).1, rfl, rfl, rfl⟩
      · have : q ∈ tRemove id jc.table := by
          unfold JobControl.updateNextId at hq
          split at hq <;> exact hq
        exact ⟨q, (List.mem_filter.1 this).1, rfl, rfl, rfl⟩

theorem scanTags {held : List Nat} {pid : Int} {st : WStatus} {cur : Option Nat}
    {t : List (Nat × Job)} {r : WaitScan} (h : scanJobs held pid st cur t = some r) :
    jobTags r.table = jobTags t := by
  induction t generalizing r with
  | nil => unfold scanJobs at h; cases h; rfl
  | cons p t ih =>
    obtain ⟨id, j⟩ := p
    unfold scanJobs at h
    split at h
    · rcases hs : scanJobs held pid st cur t with _ | r'
      · rw [hs] at h; cases h
      · rw [hs] at h; cases h
        have := ih hs
        simp only [jobTags, List.map_cons] at this ⊢
        rw [this]
    · simp only at h
      split at h
      · cases h
      · split at h
        · split at h
          · cases h
            simp only [jobTags, List.map_cons, markProcs_pids]
          · cases h
            simp only [jobTags, List.map_cons, markProcs_pids]
        · rcases hs : scanJobs held pid st cur t with _ | r'
          · rw [hs] at h; cases h
          · rw [hs] at h; cases h
            have := ih hs
            simp only [jobTags, List.map_cons, markProcs_pids] at this ⊢
            rw [this]

theorem of_jobTags {t t' : List (Nat × Job)} (h : jobTags t' = jobTags t) : ∀ q ∈ t', ∃ r ∈ t, r.1 = q.1 ∧
    r.2.jobId = q.2.jobId ∧ q.2.processes.map Process.pid = r.2.processes.map Process.pid := by
  intro q hq
  have : (q.1, q.2.jobId, q.2.processes.map Process.pid) ∈ jobTags t := by
    rw [← h]
    exact List.mem_map_of_mem (f := fun p : Nat × Job => (p.1, p.2.jobId, p.2.processes.map Process.pid)) hq
  obtain ⟨r, hr, e⟩ := List.mem_map.1 this
  simp only [Prod.mk.injEq] at e
  exact ⟨r, hr, e.1, e.2.1, e.2.2.symm⟩

theorem deleteJobM (id : Nat) : KSafe X (Rsh.deleteJobM id) := by
  have := modJcTags (X := X) (deleteTags id)
  unfold Rsh.deleteJobM; ksafe

theorem showJobs (h : Held) (t : List (Nat × Job)) : KSafe X (Rsh.showJobs h t) := by
  have := expandVar (X := X)
  induction t with
  | nil => exact pure _
  | cons p t ih => unfold Rsh.showJobs; ksafe

theorem displayJobs : KSafe X Rsh.displayJobs := by
  have := showJobs (X := X)
  unfold Rsh.displayJobs; ksafe

theorem waitpidM : KSafe X Rsh.waitpidM := by
  intro base s h1 h2
  unfold Rsh.waitpidM
  split
  · exact ⟨h1, trivial⟩
  · exact ⟨h1.event rfl (by unfold onlyKnown1; trivial), h2.same rfl rfl rfl⟩

theorem waitRetry (n : Nat) : KSafe X (Rsh.waitRetry n) := by
  have := waitpidM (X := X)
  induction n with
  | zero => exact hangM
  | succ n ih => unfold Rsh.waitRetry; ksafe

theorem waitProcess : KSafe X Rsh.waitProcess := by
  have := waitRetry (X := X)
  unfold Rsh.waitProcess; ksafe

theorem formatStatus (st : WStatus) : KSafe X (Rsh.formatStatus w st) := by
  have := expandVar (X := X)
  unfold Rsh.formatStatus; ksafe

theorem waitOne (id : Nat) : KSafe X (Rsh.waitOne w id) := by
  have h1 := waitProcess (X := X)
  have h2 := formatStatus (X := X) (w := w)
  unfold Rsh.waitOne
  refine bind interruptsOff fun _ => bind h1 fun r => ?_
  cases r with
  | err => exact pure _
  | eintr => exact pure _
  | st st =>
    refine ite (by ksafe) ?_
    intro base s h3 h4
    rw [run_getS_bind]
    cases hs : scanJobs s.held (waitPid st) st s.jc.current s.jc.table with
    | none => exact ⟨h3, trivial⟩
    | some r =>
      rw [unwrapM_some, pure_bind]
      have h5 : JobsOk X { s with jc := { s.jc with table := r.table, current := r.current } } :=
        h4.step (of_jobTags (scanTags hs)) (fun _ hi => hi) fun _ hx => hx
      unfold Rsh.modJc
      rw [run_modS_bind]
      refine (?_ : KSafe X (α := WaitOne) _) base _ h3 h5
      ksafe

theorem doWaitLoop (id n : Nat) (b : Bool) : KSafe X (Rsh.doWaitLoop w id n b) := by
  have := waitOne (X := X) (w := w)
  induction n generalizing b with
  | zero => exact hangM
  | succ n ih => unfold Rsh.doWaitLoop; ksafe

theorem doWait (id : Nat) : KSafe X (Rsh.doWait w id) := by
  have := doWaitLoop (X := X) (w := w)
  unfold Rsh.doWait; ksafe

theorem waitForJob (id : Nat) : KSafe X (Rsh.waitForJob w id) := by
  have := doWait (X := X) (w := w)
  have := deleteJobM (X := X)
  unfold Rsh.waitForJob; ksafe

theorem waitForJobSigchld (id : Nat) (st : WStatus) : KSafe X (Rsh.waitForJobSigchld w id st) := by
  have := waitForJob (X := X) (w := w)
  have := deleteJobM (X := X)
  have : KSafe X (Rsh.modJc fun jc => jc.modJob id fun j => { j with stopStatus := st, state := .finished }) :=
    modJcTags (modJobTags (fun _ => rfl) fun _ => rfl)
  unfold Rsh.waitForJobSigchld; ksafe

/-! ## Children -/

/-- What a safe child did. -/
theorem runChild_ok {m : M α} (hm : KSafe X m) {s s' : Sh} (hj : JobsOk X s) {r : ChildEnd × List Event}
    (h : Rsh.runChild w m s = (.ok r, s')) : s' = s ∧ onlyKnown (spawned s.trace ++ X) r.2 := by
  have h0 : TrOk X (childStart w s).trace (childStart w s) := ⟨[], rfl, by
    show onlyKnown _ []
    unfold onlyKnown; trivial⟩
  have h1 := hm _ _ h0 (hj.same (s' := childStart w s) rfl rfl rfl)
  unfold Rsh.runChild at h
  rcases h2 : m (childStart w s) with ⟨o, s1⟩
  rw [h2] at h1 h
  simp only at h
  cases he : childEnd o s1 with
  | none => rw [he] at h; cases h
  | some e =>
    rw [he] at h
    cases h
    refine ⟨rfl, ?_⟩
    obtain ⟨new, hn, hp⟩ := h1.1
    show onlyKnown _ (newEvents _ _)
    unfold newEvents
    simp only at hn
    rw [hn]
    simpa [childStart, spawned] using hp

/-! ## Expansion -/

variable {rec : List AndOr → M Int}

theorem evalCC (h : ∀ l, KSafe X (rec l)) (cc : CompleteCommand) : KSafe X (Rsh.evalCC rec cc) := by
  unfold Rsh.evalCC; ksafe

theorem substSignal (o : Option Nat) : KSafe X (Rsh.substSignal w o) := by
  unfold Rsh.substSignal Rsh.onSigOther; ksafe

theorem evalSubshell (h : ∀ l, KSafe X (rec l)) (x : Str) : KSafe X (Rsh.evalSubshell w rec x) := by
  have h0 := evalCC h
  have h1 := dup2U (X := X)
  have h2 := closeU (X := X)
  have h3 := pipeM (X := X) (w := w)
  have h6 := substSignal (X := X) (w := w)
  have h4 : ∀ cc r wr, KSafe X (substChild rec cc r wr) := by
    intro cc r wr
    unfold substChild
    ksafe
  unfold Rsh.evalSubshell
  split
  · ksafe
  · refine bind (unwrapM _ _) fun cc => bind getS fun st => bind (by ksafe) fun p => ?_
    obtain ⟨r, wr⟩ := p
    refine bind getS fun st => bind (unwrapM _ _) fun _ => ?_
    intro base s a1 a2
    rw [run_bind]
    rcases hr : Rsh.runChild w (substChild rec cc r wr) s with ⟨o, s1⟩
    have hs1 : s1 = s := by
      unfold Rsh.runChild at hr
      dsimp only at hr
      split at hr <;> (cases hr; rfl)
    subst hs1
    cases o with
    | ok p =>
      obtain ⟨e, evs⟩ := p
      have h5 := (runChild_ok (h4 cc r wr) a2 hr).2
      refine bindAt ⟨a1.event rfl (by unfold onlyKnown1; exact h5), a2.same rfl rfl rfl⟩ fun _ s2 _ b1 b2 => ?_
      refine (?_ : KSafe X (α := Str) _) base s2 b1 b2
      ksafe
    | err _ => exact ⟨a1, a2⟩
    | _ => exact ⟨a1, trivial⟩

theorem cutLoop (h : ∀ l, KSafe X (rec l)) (n : Nat) (x : Str) : KSafe X (Rsh.cutLoop w rec n x) := by
  have := evalSubshell (w := w) h
  induction n generalizing x with
  | zero => exact pure _
  | succ n ih =>
    cases x with
    | nil => exact pure _
    | cons c x => unfold Rsh.cutLoop; ksafe

theorem cutQuotes (h : ∀ l, KSafe X (rec l)) (x : Str) : KSafe X (Rsh.cutQuotes w rec x) := by
  have := cutLoop (w := w) h
  unfold Rsh.cutQuotes; ksafe

theorem evalDoubleQuotes (h : ∀ l, KSafe X (rec l)) (x : Str) : KSafe X (Rsh.evalDoubleQuotes w rec x) := by
  have := cutQuotes (w := w) h
  have := evalSubshell (w := w) h
  unfold Rsh.evalDoubleQuotes; ksafe

theorem evalNameWords (h : ∀ l, KSafe X (rec l)) (ps : List Str) : KSafe X (Rsh.evalNameWords w rec ps) := by
  have := evalDoubleQuotes (w := w) h
  induction ps with
  | nil => exact pure _
  | cons p ps ih => unfold Rsh.evalNameWords; ksafe

theorem evalSuffixWords (h : ∀ l, KSafe X (rec l)) (ps : List Str) :
    KSafe X (Rsh.evalSuffixWords w rec ps) := by
  have := evalDoubleQuotes (w := w) h
  have := cutQuotes (w := w) h
  induction ps with
  | nil => exact pure _
  | cons p ps ih => unfold Rsh.evalSuffixWords; ksafe

theorem evalWords (h : ∀ l, KSafe X (rec l)) (c : SimpleCommand) : KSafe X (Rsh.evalWords w rec c) := by
  have := evalNameWords (w := w) h
  have := evalSuffixWords (w := w) h
  have := cutQuotes (w := w) h
  unfold Rsh.evalWords; ksafe

theorem expandCommand (h : ∀ l, KSafe X (rec l)) (c : SimpleCommand) : KSafe X (Rsh.expandCommand w rec c) := by
  have := evalWords (w := w) h
  unfold Rsh.expandCommand Rsh.aliasLookup Rsh.expandVars; ksafe

/-! ## Builtins -/

theorem bCd (c : SimpleCommand) : KSafe X (Rsh.bCd w c) := by
  have := wordAt (X := X)
  have : ∀ d p, KSafe X (Rsh.modS fun s => { s with cwd := d, trace := Event.chdir p :: s.trace }) :=
    fun d p => event (fun _ => .chdir p) (fun _ => ⟨rfl, fun _ => by unfold onlyKnown1; trivial⟩) fun _ => ⟨rfl, rfl, rfl⟩
  unfold Rsh.bCd; ksafe

theorem saveHistory : KSafe X (Rsh.saveHistory w) := by unfold Rsh.saveHistory; ksafe

theorem bExit (c : SimpleCommand) : KSafe X (Rsh.bExit w c) := by
  have := saveHistory (X := X) (w := w)
  unfold Rsh.bExit; ksafe

theorem bReturn (c : SimpleCommand) : KSafe X (Rsh.bReturn c) := by unfold Rsh.bReturn; ksafe

theorem bJobs : KSafe X Rsh.bJobs := by
  have := displayJobs (X := X)
  unfold Rsh.bJobs; ksafe

theorem contAll (ps : List Process) {base : List Event} {s : Sh} (h1 : TrOk X base s) (h2 : JobsOk X s)
    (h : ∀ p ∈ ps, KnownTo X s p.pid) : KPost X base (Rsh.contAll w ps s) := by
  induction ps generalizing s with
  | nil => exact ⟨h1, h2⟩
  | cons p ps ih =>
    unfold Rsh.contAll
    rw [run_getS_bind]
    split
    · refine bindAt ⟨h1.event rfl (by unfold onlyKnown1; exact h p List.mem_cons_self), h2.same rfl rfl rfl⟩ ?_
      rintro a s1 he b1 b2
      cases he
      exact ih b1 b2 fun q hq => h q (List.mem_cons_of_mem _ hq)
    · exact ⟨h1, trivial⟩

theorem fgbgId (c : SimpleCommand) : KSafe X (Rsh.fgbgId c) := by
  have := wordAt (X := X)
  unfold Rsh.fgbgId; ksafe

theorem findJob_mem {id : Nat} {ty : IdType} {s s' : Sh} {j : Job} (h : Rsh.findJob id ty s = (.ok j, s')) :
    s' = s ∧ ∃ k, (k, j) ∈ s.jc.table := by
  unfold Rsh.findJob at h
  cases ty with
  | pid =>
    simp only [run_getS_bind] at h
    cases hg : s.jc.getJobPid (asI32 id) with
    | none => rw [hg] at h; cases h
    | some j' =>
      rw [hg] at h
      cases h
      unfold JobControl.getJobPid at hg
      obtain ⟨k, _, hk⟩ := Option.bind_eq_some_iff.1 hg
      exact ⟨rfl, k, lookup_mem hk⟩
  | jid =>
    simp only [run_getS_bind] at h
    cases hg : s.jc.getJob id with
    | none => rw [hg] at h; cases h
    | some j' =>
      rw [hg] at h
      cases h
      exact ⟨rfl, id, lookup_mem hg⟩

theorem findJob (id : Nat) (ty : IdType) : KSafe X (Rsh.findJob id ty) := by unfold Rsh.findJob; ksafe

theorem resume {j : Job} (b : Bool) {base : List Event} {s : Sh} (h1 : TrOk X base s) (h2 : JobsOk X s) {k : Nat}
    (hj : (k, j) ∈ s.jc.table) : KPost X base (Rsh.resume w j b s) := by
  unfold Rsh.resume
  rw [run_getS_bind]
  split
  · exact ⟨h1, trivial⟩
  · next hh =>
    obtain ⟨h3, h4⟩ := h2 _ hj
    simp only at h3 h4
    have h5 : ∀ p ∈ j.processes, KnownTo X s p.pid := by
      rcases h4 with h4 | h4
      · exact absurd (by simpa [h3] using h4) hh
      · exact h4
    have h6 : KSafe X (Rsh.modJc fun jc => jc.modJob j.jobId fun j => { j with state := .running, background := b }) :=
      modJcTags (modJobTags (fun _ => rfl) fun _ => rfl)
    refine bindAt (h6 base s h1 h2) ?_
    rintro a s1 he b1 b2
    cases he
    exact bindAt (contAll _ b1 b2 h5) fun _ s2 _ c1 c2 => printlnM _ base s2 c1 c2

theorem bFgBg (c : SimpleCommand) : KSafe X (Rsh.bFgBg w c) := by
  have hw := waitForJob (X := X) (w := w)
  unfold Rsh.bFgBg
  refine bind interruptsOff fun _ => bind (fgbgId c) fun p => ?_
  obtain ⟨id, ty⟩ := p
  intro base s h1 h2
  refine bindAt (findJob id ty base s h1 h2) fun j s1 he b1 b2 => ?_
  obtain ⟨rfl, k, hk⟩ := findJob_mem he
  split
  · refine bindAt (resume false b1 b2 hk) fun _ s2 _ c1 c2 => ?_
    refine (?_ : KSafe X (α := Unit) _) base s2 c1 c2
    ksafe
  · exact bindAt (resume true b1 b2 hk) fun _ s2 _ c1 c2 => interruptsOn base s2 c1 c2

theorem displayAliases (a : AMap Str) : KSafe X (Rsh.displayAliases a) := by
  induction a with
  | nil => exact pure _
  | cons p a ih => unfold Rsh.displayAliases; ksafe

theorem addAliases (xs : List Str) : KSafe X (Rsh.addAliases xs) := by
  have : ∀ x, KSafe X (Rsh.addAlias x) := by
    intro x
    unfold Rsh.addAlias; ksafe
  induction xs with
  | nil => exact pure _
  | cons p a ih => unfold Rsh.addAliases; ksafe

theorem bAlias (c : SimpleCommand) : KSafe X (Rsh.bAlias c) := by
  have := displayAliases (X := X)
  have := addAliases (X := X)
  have := wordAt (X := X)
  unfold Rsh.bAlias; ksafe

theorem bUnalias (c : SimpleCommand) : KSafe X (Rsh.bUnalias c) := by
  have := wordAt (X := X)
  unfold Rsh.bUnalias; ksafe

theorem createContextFromFile (h : ∀ l, KSafe X (rec l)) (f : Str) :
    KSafe X (Rsh.createContextFromFile w rec f) := by
  have := evalCC h
  have := readFileM (X := X) (w := w)
  have := popContext (X := X)
  unfold Rsh.createContextFromFile; ksafe

theorem printEnv (a : AMap Str) : KSafe X (Rsh.printEnv a) := by
  induction a with
  | nil => exact pure _
  | cons p a ih => unfold Rsh.printEnv; ksafe

theorem exportAll (xs : List Str) : KSafe X (Rsh.exportAll xs) := by
  have := expandVar (X := X)
  have := addVarAt (X := X)
  have := setEnv (X := X)
  have h1 : ∀ x, KSafe X (Rsh.exportName x) := by
    intro x
    unfold Rsh.exportName; ksafe
  have h2 : ∀ x, KSafe X (Rsh.exportSet x) := by
    intro x
    unfold Rsh.exportSet; ksafe
  induction xs with
  | nil => exact pure _
  | cons p a ih => unfold Rsh.exportAll; ksafe

theorem bExport (h : ∀ l, KSafe X (rec l)) (c : SimpleCommand) : KSafe X (Rsh.bExport w rec c) := by
  have := printEnv (X := X)
  have := exportAll (X := X)
  have := createContextFromFile (w := w) h
  have := addContextM (X := X)
  unfold Rsh.bExport Rsh.exportContext; ksafe

theorem bAssign (c : SimpleCommand) : KSafe X (Rsh.bAssign c) := by
  have := addVarContext (X := X)
  unfold Rsh.bAssign; ksafe

theorem bEval (h : ∀ l, KSafe X (rec l)) (c : SimpleCommand) : KSafe X (Rsh.bEval w rec c) := by
  have := evalCC h
  have := wordAt (X := X)
  unfold Rsh.bEval; ksafe

theorem bUnset (c : SimpleCommand) : KSafe X (Rsh.bUnset c) := by
  have := wordAt (X := X)
  unfold Rsh.bUnset Rsh.unsetFlags; ksafe

theorem printReadonly (xs : List Str) : KSafe X (Rsh.printReadonly xs) := by
  induction xs with
  | nil => exact pure _
  | cons p a ih => unfold Rsh.printReadonly; ksafe

theorem printNames (xs : List Str) : KSafe X (Rsh.printNames xs) := by
  induction xs with
  | nil => exact pure _
  | cons p a ih => unfold Rsh.printNames; ksafe

theorem bReadonly (c : SimpleCommand) : KSafe X (Rsh.bReadonly c) := by
  have := wordAt (X := X)
  have := printReadonly (X := X)
  have := printNames (X := X)
  have h1 : ∀ x, KSafe X (Rsh.readonlyFlags x) := by intro x; unfold Rsh.readonlyFlags; ksafe
  have h2 : ∀ x p b, KSafe X (Rsh.readonlyFlags2 x p b) := by intro x p b; unfold Rsh.readonlyFlags2; ksafe
  have h3 : ∀ fl ws p, KSafe X (Rsh.readonlyPrint fl ws p) := by
    intro fl ws p
    unfold Rsh.readonlyPrint; ksafe
  unfold Rsh.bReadonly
  split
  · ksafe
  · next heq =>
    rw [← heq]
    refine bind (h1 _) fun p => ?_
    obtain ⟨fl, pos, print⟩ := p
    refine bind (wordAt _ _) fun y => ?_
    refine bind (h2 _ _ _) fun p => ?_
    obtain ⟨pos, print⟩ := p
    refine ite (h3 _ _ _) (bind getS fun s => ?_)
    split
    · exact printNames _
    · cases c.words[pos]? with
      | none => exact throwE _
      | some a => ksafe

theorem bExec (c : SimpleCommand) : KSafe X (Rsh.bExec w c) := by
  have hw := wordAt (X := X)
  have := tempExecve (X := X) (w := w)
  have h1 : ∀ ws, KSafe X (Rsh.execOpts1 ws) := by intro ws; unfold Rsh.execOpts1; ksafe
  have h2 : ∀ ws o, KSafe X (Rsh.execOpts2 ws o) := by intro ws o; unfold Rsh.execOpts2; ksafe
  unfold Rsh.bExec
  ksafe

theorem sourceArgs (i : Nat) (xs : List Str) : KSafe X (Rsh.sourceArgs i xs) := by
  have := addVarContext (X := X)
  induction xs generalizing i with
  | nil => exact pure _
  | cons p a ih => unfold Rsh.sourceArgs; ksafe

theorem bSource (h : ∀ l, KSafe X (rec l)) (c : SimpleCommand) : KSafe X (Rsh.bSource w rec c) := by
  have := evalCC h
  have := sourceArgs (X := X)
  have := lookupCommandM (X := X) (w := w)
  have := readFileM (X := X) (w := w)
  unfold Rsh.bSource; ksafe

theorem callBuiltin (h : ∀ l, KSafe X (rec l)) (c : SimpleCommand) : KSafe X (Rsh.callBuiltin w rec c) := by
  unfold Rsh.callBuiltin
  have hp : KSafe X Rsh.bPwd := by unfold Rsh.bPwd; ksafe
  exact .ite (bCd _) <| .ite (bExit _) <| .ite (bReturn _) <| .ite bJobs <|
    .ite (bFgBg _) <| .ite (bAlias _) <| .ite (bUnalias _) <| .ite (bExport h _) <|
    .ite (bEval h _) <| .ite (bUnset _) <| .ite hp <| .ite (bReadonly _) <|
    .ite (bExec _) <| .ite (bSource h _) <| .ite (bAssign _) (.throwE _)

/-! ## Evaluation -/

theorem evalAssignments (as : List Str) : KSafe X (Rsh.evalAssignments as) := by
  have := setEnv (X := X)
  induction as with
  | nil => exact pure _
  | cons p a ih => unfold Rsh.evalAssignments; ksafe

theorem evalRedirects (rs : List IoRedirect) : KSafe X (Rsh.evalRedirects w rs) := by
  have := openU (X := X) (w := w)
  have := dup2U (X := X)
  have h1 : ∀ r, KSafe X (Rsh.evalRedirect1 w r) := by intro r; unfold Rsh.evalRedirect1; ksafe
  induction rs with
  | nil => exact pure _
  | cons p a ih => unfold Rsh.evalRedirects; ksafe

theorem evalPrefixSuffix (c : SimpleCommand) : KSafe X (Rsh.evalPrefixSuffix w c) := by
  have := evalRedirects (X := X) (w := w)
  have := evalAssignments (X := X)
  unfold Rsh.evalPrefixSuffix; ksafe

theorem setParams (i : Nat) (as : List Str) : KSafe X (Rsh.setParams i as) := by
  have := addVarContext (X := X)
  induction as generalizing i with
  | nil => exact pure _
  | cons p a ih => unfold Rsh.setParams; ksafe

theorem callFunction (h : ∀ l, KSafe X (rec l)) (c : SimpleCommand) : KSafe X (Rsh.callFunction rec c) := by
  have h1 : ∀ cc, KSafe X (evalCompound rec cc) := by intro cc; unfold evalCompound; ksafe
  have h2 := addVarContext (X := X)
  have h3 := setParams (X := X)
  have h4 := popContext (X := X)
  have h5 : ∀ c, KSafe X (Rsh.evalFunction rec c) := by intro c; unfold Rsh.evalFunction; ksafe
  unfold Rsh.callFunction; ksafe

theorem evalCommand (h : ∀ l, KSafe X (rec l)) (c : Command) : KSafe X (Rsh.evalCommand w rec c) := by
  have := expandCommand (w := w) h
  have := callBuiltin (w := w) h
  have := addFunctionM (X := X)
  unfold Rsh.evalCommand Rsh.evalSimple Rsh.evalBuiltin; ksafe

theorem evalCommands (h : ∀ l, KSafe X (rec l)) (cs : List Command) : KSafe X (Rsh.evalCommands w rec cs) := by
  have := evalCommand (w := w) h
  induction cs with
  | nil => exact pure _
  | cons p a ih => unfold Rsh.evalCommands; ksafe

theorem runFunctions (h : ∀ l, KSafe X (rec l)) (ps : List (Process × SimpleCommand)) :
    KSafe X (Rsh.runFunctions rec ps) := by
  have := callFunction h
  induction ps with
  | nil => exact pure _
  | cons p ps ih => unfold Rsh.runFunctions; ksafe

/-- What a pipeline member does after it has marked its job as held. -/
theorem pipelineChild (h : ∀ l, KSafe X (rec l)) (b : Bool) (id : Nat) (pip : Int × Int) (prev : Int)
    (p : Process) (c : SimpleCommand) {base : List Event} {s : Sh} (h1 : TrOk X base s)
    (h2 : JobsOk X { s with held := id :: s.held }) :
    KPost X base (Rsh.pipelineChild w rec b id pip prev p c s) := by
  have := callFunction h
  have := evalPrefixSuffix (X := X) (w := w)
  have := dup2U (X := X)
  have := closeU (X := X)
  have := tempExecve (X := X) (w := w)
  unfold Rsh.pipelineChild
  rw [run_modS_bind]
  refine (?_ : KSafe X (α := Unit) _) base _ h1 (h2.same rfl rfl rfl)
  ksafe

/-! ## The fork loop -/

/-- The state in the fork loop of job `id`: the processes before number `count` are known (and all, if `-1` is). -/
structure LoopOk (X : List Int) (id count total : Nat) (s : Sh) : Prop where
  jobs : JobsOk X { s with held := id :: s.held }
  own : ∀ q ∈ s.jc.table, q.1 = id → id ∈ s.held ∨ ∀ i p, q.2.processes[i]? = some p →
    (i < count ∨ total ≤ i ∨ -1 ∈ X) → KnownTo X s p.pid

theorem LoopOk.same {id count total : Nat} {s s' : Sh} (h : LoopOk X id count total s) (hj : s'.jc = s.jc)
    (hh : s'.held = s.held) (ht : spawned s'.trace = spawned s.trace) : LoopOk X id count total s' := by
  refine ⟨h.jobs.same hj (by rw [hh]) ht, fun q hq hi => ?_⟩
  rw [hj] at hq
  rw [hh]
  exact (h.own q hq hi).imp (fun h => h) fun h i p hp hc => (h i p hp hc).mono fun x hx => by rw [ht]; exact hx

/-- All processes of the job are known. -/
theorem LoopOk.done {id count total : Nat} {s : Sh} (h : LoopOk X id count total s)
    (hc : total ≤ count ∨ -1 ∈ X) : JobsOk X s := by
  intro q hq
  obtain ⟨h1, h2⟩ := h.jobs q hq
  refine ⟨h1, ?_⟩
  rcases h2 with h2 | h2
  · rcases List.mem_cons.1 h2 with h2 | h2
    · rcases h.own q hq h2 with h3 | h3
      · exact .inl (h2 ▸ h3)
      · refine .inr fun p hp => ?_
        obtain ⟨i, hi⟩ := List.mem_iff_getElem?.1 hp
        refine h3 i p hi ?_
        rcases hc with hc | hc
        · rcases Nat.lt_or_ge i count with h | h
          · exact .inl h
          · exact .inr (.inl (Nat.le_trans hc h))
        · exact .inr (.inr hc)
    · exact .inl h2
  · exact .inr h2

theorem LoopOk.create {s : Sh} (h : JobsOk X s) (ps : List Process) (hps : ∀ p ∈ ps, p.pid = -1) (b : Bool) :
    LoopOk X s.jc.nextId 0 ps.length { s with jc := (s.jc.createJob ps b).2 } := by
  refine ⟨fun q hq => ?_, fun q hq hi => ?_⟩
  · rcases mem_tInsert hq with rfl | hq
    · exact ⟨rfl, .inl List.mem_cons_self⟩
    · exact ⟨(h q hq).1, (h q hq).2.imp (List.mem_cons_of_mem _) id⟩
  · rcases mem_tInsert hq with rfl | hq
    · refine .inr fun i p hp hc => ?_
      have hlt := (List.getElem?_eq_some_iff.1 hp).1
      rcases hc with hc | hc | hc
      · omega
      · exact absurd hlt (by simp only; omega)
      · rw [hps p (List.mem_of_getElem? hp)]
        exact List.mem_append_right _ hc
    · refine (h q hq).2.imp (fun h => hi ▸ h) fun h i p hp _ => h p (List.mem_of_getElem? hp)

theorem LoopOk.spawn {id count total pid : Nat} {e : ChildEnd} {evs : List Event} {s : Sh}
    (h : LoopOk X id count total s) : LoopOk X id (count + 1) total { s with
      trace := .spawn pid e evs :: s.trace
      jc := (s.jc.modJob id (setPidAt count pid)).updatePid id pid } := by
  have hm : ∀ {p}, KnownTo X s p → KnownTo X { s with
      trace := .spawn pid e evs :: s.trace
      jc := (s.jc.modJob id (setPidAt count pid)).updatePid id pid } p :=
    fun h => h.mono fun x hx => List.mem_cons_of_mem _ hx
  have hnew : KnownTo X { s with
      trace := .spawn pid e evs :: s.trace
      jc := (s.jc.modJob id (setPidAt count pid)).updatePid id pid } pid :=
    List.mem_append_left _ List.mem_cons_self
  refine ⟨fun q hq => ?_, fun q hq hi => ?_⟩
  · obtain ⟨r, hr, eq⟩ := List.mem_map.1 hq
    obtain ⟨h1, h2⟩ := h.jobs r hr
    split at eq
    · next he => cases eq; exact ⟨h1, .inl (by rw [he]; exact List.mem_cons_self)⟩
    · cases eq
      exact ⟨h1, h2.imp (fun h => h) fun h p hp => hm (h p hp)⟩
  · obtain ⟨r, hr, eq⟩ := List.mem_map.1 hq
    split at eq
    · next he =>
      cases eq
      refine (h.own r hr he).imp (fun h => h) fun h i p hp hc => ?_
      have hp' : (r.2.processes.modify count fun p => { p with pid })[i]? = some p := hp
      rw [List.getElem?_modify] at hp'
      cases hg : r.2.processes[i]? with
      | none => rw [hg] at hp'; cases hp'
      | some p0 =>
        rw [hg] at hp'
        simp only [Option.map_eq_map, Option.map_some] at hp'
        by_cases hci : count = i
        · rw [if_pos hci] at hp'
          cases hp'
          exact hnew
        · rw [if_neg hci] at hp'
          cases hp'
          exact hm (h i p hg (by
            rcases hc with hc | hc | hc
            · exact .inl (by omega)
            · exact .inr (.inl hc)
            · exact .inr (.inr hc)))
    · next he => cases eq; exact absurd hi he

theorem bindStill {m : M α} {f : α → M β} {base : List Event} {s : Sh} (h1 : TrOk X base s)
    (hm : ∀ s, (m s).2.jc = s.jc ∧ (m s).2.held = s.held ∧ (m s).2.trace = s.trace) (hn : NoThrow m)
    (hf : ∀ a s1, m s = (.ok a, s1) → s1.jc = s.jc → s1.held = s.held → s1.trace = s.trace →
      KPost X base (f a s1)) : KPost X base ((m >>= f) s) := by
  rw [run_bind]
  obtain ⟨e1, e2, e3⟩ := hm s
  have hne := hn.run s
  rcases h : m s with ⟨o, s1⟩
  rw [h] at e1 e2 e3 hne
  have h2 : TrOk X base s1 := by
    obtain ⟨new, hn, hp⟩ := h1
    exact ⟨new, e3.trans hn, hp⟩
  cases o with
  | ok a => exact hf a s1 h e1 e2 e3
  | err e => exact (hne e rfl).elim
  | _ => exact ⟨h2, trivial⟩

theorem forkLoop (h : ∀ l, KSafe X (rec l)) (hX : -1 ∈ X ∨ Spec.Resources w) (b : Bool) (id total : Nat)
    (ps : List (Process × SimpleCommand)) (count : Nat) (hc : count + ps.length = total) (pip : Int × Int) (prev : Int)
    {base : List Event} {s : Sh} (h1 : TrOk X base s) (h2 : LoopOk X id count total s) :
    KPost X base (Rsh.forkLoop w rec b id total ps count pip prev s) := by
  induction ps generalizing count pip prev s with
  | nil => exact ⟨h1, h2.done (.inl (by simp at hc; omega))⟩
  | cons q ps ih =>
    obtain ⟨p, c⟩ := q
    have hclose : ∀ fd s, (Rsh.closeM fd s).2.jc = s.jc ∧ (Rsh.closeM fd s).2.held = s.held ∧
        (Rsh.closeM fd s).2.trace = s.trace := by
      intro fd s
      unfold Rsh.closeM
      split <;> exact ⟨rfl, rfl, rfl⟩
    have hcloseN : ∀ fd, NoThrow (Rsh.closeM fd) := by
      intro fd
      refine ⟨fun s e => ?_⟩
      unfold Rsh.closeM
      split <;> exact fun h => nomatch h
    have hcloseU : ∀ fd s, (Rsh.closeU fd s).2.jc = s.jc ∧ (Rsh.closeU fd s).2.held = s.held ∧
        (Rsh.closeU fd s).2.trace = s.trace := by
      intro fd s
      unfold Rsh.closeU
      rw [run_bind]
      have := hclose fd s
      rcases h : Rsh.closeM fd s with ⟨o, s1⟩
      rw [h] at this
      cases o with
      | ok a => cases a <;> exact this
      | _ => exact this
    -- what follows the fork
    have hend : ∀ (pip : Int × Int) s, TrOk X base s → LoopOk X id (count + 1) total s →
        KPost X base ((do
          if 0 ≤ prev then Rsh.closeU prev else Pure.pure ()
          let _ ← Rsh.closeM pip.2
          Rsh.forkLoop w rec b id total ps (count + 1) pip pip.1 : M Unit) s) := by
      intro pip s a1 a2
      have hlast : ∀ s1, TrOk X base s1 → LoopOk X id (count + 1) total s1 → KPost X base ((do
          let _ ← Rsh.closeM pip.2
          Rsh.forkLoop w rec b id total ps (count + 1) pip pip.1 : M Unit) s1) := by
        intro s1 a3 a5
        refine bindStill a3 (hclose _) (hcloseN _) fun _ s2 _ e4 e5 e6 => ?_
        have a4 : TrOk X base s2 := by
          obtain ⟨new, hn, hp⟩ := a3
          exact ⟨new, e6.trans hn, hp⟩
        exact ih (count + 1) (by simp at hc; omega) pip pip.1 a4 (a5.same e4 e5 (congrArg spawned e6))
      dsimp only
      split
      · refine bindStill a1 (hcloseU _) (.closeU _) fun _ s1 _ e1 e2 e3 => ?_
        have a3 : TrOk X base s1 := by
          obtain ⟨new, hn, hp⟩ := a1
          exact ⟨new, e3.trans hn, hp⟩
        exact hlast s1 a3 (a2.same e1 e2 (congrArg spawned e3))
      · exact hlast s a1 a2
    -- the fork
    have hfork : ∀ (pip : Int × Int) s, TrOk X base s → LoopOk X id count total s →
        KPost X base ((do
          let s ← Rsh.getS
          match w.fork s.trace with
          | none => Rsh.emit .forkFailed
          | some pid => do
            let (e, evs) ← Rsh.runChild w (Rsh.pipelineChild w rec b id pip prev p c)
            Rsh.emit (.spawn pid e evs)
            Rsh.modJc fun jc => (jc.modJob id (setPidAt count pid)).updatePid id pid
          if 0 ≤ prev then Rsh.closeU prev else Pure.pure ()
          let _ ← Rsh.closeM pip.2
          Rsh.forkLoop w rec b id total ps (count + 1) pip pip.1 : M Unit) s) := by
      intro pip s a1 a2
      rw [run_getS_bind]
      cases hf : w.fork s.trace with
      | none =>
        rcases hX with hX | hX
        · dsimp only
          rw [run_bind]
          refine hend pip _ (a1.event (e := .forkFailed) rfl (by unfold onlyKnown1; trivial)) ?_
          have a3 := a2.same (s' := { s with trace := .forkFailed :: s.trace }) rfl rfl rfl
          exact ⟨a3.jobs, fun q hq hi => (a3.own q hq hi).imp (fun h => h) fun h i p hp _ => h i p hp (.inr (.inr hX))⟩
        · exact absurd hf (hX.fork _)
      | some pid =>
        dsimp only
        rw [run_bind]
        rcases hr : Rsh.runChild w (Rsh.pipelineChild w rec b id pip prev p c) s with ⟨o, s1⟩
        have hs1 : s1 = s := by
          unfold Rsh.runChild at hr
          dsimp only at hr
          split at hr <;> (cases hr; rfl)
        subst hs1
        cases o with
        | ok r =>
          obtain ⟨e, evs⟩ := r
          have h5 : onlyKnown (spawned s1.trace ++ X) evs := by
            have h0 : TrOk X (childStart w s1).trace (childStart w s1) := ⟨[], rfl, by
              show onlyKnown _ []
              unfold onlyKnown; trivial⟩
            have h6 := pipelineChild (w := w) h b id pip prev p c h0
              (a2.jobs.same (s' := { childStart w s1 with held := id :: s1.held }) rfl rfl rfl)
            unfold Rsh.runChild at hr
            rcases h2 : Rsh.pipelineChild w rec b id pip prev p c (childStart w s1) with ⟨o, s2⟩
            rw [h2] at h6 hr
            simp only at hr
            cases he : childEnd o s2 with
            | none => rw [he] at hr; cases hr
            | some e =>
              rw [he] at hr
              cases hr
              obtain ⟨new, hn, hp⟩ := h6.1
              unfold newEvents
              simp only at hn
              rw [hn]
              simpa [childStart, spawned] using hp
          refine hend pip _ (a1.event (e := .spawn pid e evs) rfl (by unfold onlyKnown1; exact h5)) a2.spawn
        | err _ =>
          unfold Rsh.runChild at hr
          dsimp only at hr
          split at hr <;> cases hr
        | _ => exact ⟨a1, trivial⟩
    unfold Rsh.forkLoop
    dsimp only
    by_cases hcnt : count < total - 1
    · have hpipeN : NoThrow (Rsh.pipeM w) := by
        refine ⟨fun s e => ?_⟩
        unfold Rsh.pipeM
        split <;> exact fun h => nomatch h
      have hpipe : ∀ s, (Rsh.pipeM w s).2.jc = s.jc ∧ (Rsh.pipeM w s).2.held = s.held ∧
          (Rsh.pipeM w s).2.trace = s.trace := by
        intro s
        unfold Rsh.pipeM
        split <;> exact ⟨rfl, rfl, rfl⟩
      rw [if_pos hcnt]
      refine bindStill h1 hpipe hpipeN fun r s1 hr e1 e2 e3 => ?_
      have a1 : TrOk X base s1 := by
        obtain ⟨new, hn, hp⟩ := h1
        exact ⟨new, e3.trans hn, hp⟩
      have a2 := h2.same e1 e2 (congrArg spawned e3)
      cases r with
      | none =>
        rcases hX with hX | hX
        · exact ⟨a1, a2.done (.inr hX)⟩
        · unfold Rsh.pipeM at hr
          rw [if_pos (hX.pipe _)] at hr
          cases hr
      | some pr =>
        dsimp only
        rw [pure_bind]
        exact hfork _ s1 a1 a2
    · rw [if_neg hcnt, pure_bind]
      exact hfork _ s h1 h2

/-! ## Lists and `main` -/

theorem afterFork (b : Bool) (id count : Nat) : KSafe X (Rsh.afterFork w b id count) := by
  have := deleteJobM (X := X)
  have := waitForJob (X := X) (w := w)
  unfold Rsh.afterFork; ksafe

theorem evalPipeline (h : ∀ l, KSafe X (rec l)) (hX : -1 ∈ X ∨ Spec.Resources w) (pl : Pipeline) :
    KSafe X (Rsh.evalPipeline w rec pl) := by
  have h5 := afterFork (X := X) (w := w)
  have h3 : ∀ procs : List (Process × SimpleCommand), (∀ q ∈ procs, q.1.pid = -1) → KSafe X (do
      let jobId ← Rsh.createJobM (procs.map Prod.fst) pl.background
      Rsh.forkLoop w rec pl.background jobId procs.length procs 0 (-1, -1) (-1)
      Rsh.afterFork w pl.background jobId procs.length
      Rsh.interruptsOn
      let s ← Rsh.getS
      Pure.pure s.exitStatus) := by
    intro procs hp base s h1 h2
    have hp' : ∀ p ∈ procs.map Prod.fst, p.pid = -1 := by
      intro p hm
      obtain ⟨q, hq, rfl⟩ := List.mem_map.1 hm
      exact hp q hq
    have hl := LoopOk.create h2 _ hp' pl.background
    rw [List.length_map] at hl
    rw [run_bind_ok (show Rsh.createJobM (procs.map Prod.fst) pl.background s =
      (.ok s.jc.nextId, { s with jc := (s.jc.createJob (procs.map Prod.fst) pl.background).2 }) from rfl)]
    refine bindAt (forkLoop h hX pl.background _ _ procs 0 (by omega) _ _ h1 hl) fun _ s1 _ b1 b2 => ?_
    refine (?_ : KSafe X (α := Int) _) base s1 b1 b2
    ksafe
  intro base s h1 h2
  unfold Rsh.evalPipeline
  refine bindAt (interruptsOff base s h1 h2) fun _ s1 _ b1 b2 => ?_
  refine bindAt (evalCommands h _ base s1 b1 b2) fun procs s2 hc c1 c2 => ?_
  have hprocs := evalCommands_pids hc
  dsimp only
  split
  · exact ⟨c1, c2⟩
  · split
    · exact h3 procs hprocs base s2 c1 c2
    · refine bindAt (runFunctions h _ base s2 c1 c2) fun procs' s3 hr d1 d2 => ?_
      exact h3 procs' (fun q hq => hprocs q (runFunctions_sub hr q hq)) base s3 d1 d2

theorem evalAndOr (h : ∀ l, KSafe X (rec l)) (hX : -1 ∈ X ∨ Spec.Resources w) (a : AndOr) :
    KSafe X (Rsh.evalAndOr w rec a) := by
  have := evalPipeline h hX
  fun_induction Rsh.evalAndOr w rec a with
  | case1 c p => ksafe
  | case2 l c p ih => ksafe

theorem evalListFrom (h : ∀ l, KSafe X (rec l)) (hX : -1 ∈ X ∨ Spec.Resources w) (st : Int) (l : List AndOr) :
    KSafe X (Rsh.evalListFrom w rec st l) := by
  have := evalAndOr h hX
  induction l generalizing st with
  | nil => exact pure _
  | cons p ps ih => unfold Rsh.evalListFrom; ksafe

theorem evalFuel (hX : -1 ∈ X ∨ Spec.Resources w) (n : Nat) (l : List AndOr) : KSafe X (Rsh.evalFuel w n l) := by
  induction n generalizing l with
  | zero => exact deepM
  | succ n ih => exact evalListFrom ih hX (-1) l

theorem evalTop (hX : -1 ∈ X ∨ Spec.Resources w) (n : Nat) (cc : CompleteCommand) : KSafe X (Rsh.evalTop w n cc) :=
  evalCC (evalFuel hX n) cc

theorem interactiveLine (hX : -1 ∈ X ∨ Spec.Resources w) (n : Nat) (x : Str) :
    KSafe X (Rsh.interactiveLine w n x) := by
  have := evalTop hX
  unfold Rsh.interactiveLine; ksafe

theorem setStatusFirst_pids (pid : Int) (st : WStatus) (ps : List Process) :
    (setStatusFirst pid st ps).map Process.pid = ps.map Process.pid := by
  induction ps with
  | nil => rfl
  | cons p ps ih =>
    unfold setStatusFirst
    split
    · rfl
    · rw [List.map_cons, ih]; rfl

theorem deliver (g : Nat) : KSafe X (Rsh.deliver w g) := by
  have h1 := waitForJobSigchld (X := X) (w := w)
  have h0 : ∀ id pid st, KSafe X (Rsh.modJc fun jc => jc.modJob id fun j =>
      { j with processes := setStatusFirst pid st j.processes }) := fun id pid st =>
    modJcTags (modJobTags (fun _ => rfl) fun _ => setStatusFirst_pids _ _ _)
  have h2 : ∀ pid st msg, KSafe X (sigChldWith.go w pid st msg) := by
    intro pid st msg
    unfold sigChldWith.go; ksafe
  have h3 : ∀ r, KSafe X (sigChldWith w r) := by intro r; unfold sigChldWith; ksafe
  have h4 := waitpidM (X := X)
  unfold Rsh.deliver Rsh.onSigchld Rsh.onSigOther; ksafe

theorem interactiveLoop (hX : -1 ∈ X ∨ Spec.Resources w) (n : Nat) (ins : List SessionIn) :
    KSafe X (Rsh.interactiveLoop w n ins) := by
  have := interactiveLine hX
  have := expandVar (X := X)
  have := saveHistory (X := X) (w := w)
  have := deliver (X := X) (w := w)
  induction ins with
  | nil => unfold Rsh.interactiveLoop; ksafe
  | cons i ins ih => cases i <;> unfold Rsh.interactiveLoop <;> ksafe

theorem scriptLine (hX : -1 ∈ X ∨ Spec.Resources w) (n : Nat) (x : Str) : KSafe X (Rsh.scriptLine w n x) := by
  have := evalTop hX
  unfold Rsh.scriptLine; ksafe

theorem scriptEof (hX : -1 ∈ X ∨ Spec.Resources w) (n k : Nat) : KSafe X (Rsh.scriptEof w n k) := by
  have := scriptLine hX
  induction k with
  | zero => exact hangM
  | succ k ih => unfold Rsh.scriptEof; ksafe

theorem scriptLines (hX : -1 ∈ X ∨ Spec.Resources w) (n k : Nat) (ls : List Str) :
    KSafe X (Rsh.scriptLines w n k ls) := by
  have := scriptLine hX
  have := scriptEof hX
  induction ls with
  | nil => unfold Rsh.scriptLines; ksafe
  | cons l ls ih => unfold Rsh.scriptLines; ksafe

theorem readStartup (hX : -1 ∈ X ∨ Spec.Resources w) (n : Nat) (p : Str) : KSafe X (Rsh.readStartup w n p) := by
  have := evalTop hX
  have := readFileM (X := X) (w := w)
  unfold Rsh.readStartup; ksafe

theorem argLoop (as : List Str) (st : ArgState) : KSafe X (Rsh.argLoop as st) := by
  have := addVarAt (X := X)
  have h1 : ∀ a i, KSafe X (Rsh.setInputArgs a i) := by intro a i; unfold Rsh.setInputArgs; ksafe
  have h2 : ∀ a, KSafe X (Rsh.setScriptName a) := by intro a; unfold Rsh.setScriptName; ksafe
  induction as generalizing st with
  | nil => exact pure _
  | cons a as ih => unfold Rsh.argLoop; ksafe

theorem mainM (hX : -1 ∈ X ∨ Spec.Resources w) (n k : Nat) (args : List Str) (ins : List SessionIn) :
    KSafe X (Rsh.mainM w n k args ins) := by
  have h1 := readStartup hX
  have h2 := interactiveLoop hX
  have h3 := scriptLines hX
  have h4 := evalTop hX
  have h5 := readFileM (X := X) (w := w)
  have h6 := argLoop (X := X)
  have h7 := addVarAt (X := X)
  have h8 := setSignal (X := X)
  unfold Rsh.mainM Rsh.readFromArgs Rsh.scriptLoop Rsh.parseArgs Rsh.setArg0
  ksafe

end KSafe

end Rsh
