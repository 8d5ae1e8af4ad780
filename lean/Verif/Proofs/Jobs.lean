import Verif.Proofs.Session
import Verif.Spec.Jobs

/-!
# The job table
-/

namespace Rsh

open Spec

theorem lookup_cons_if [DecidableEq α] (k' k : α) (v : β) (l : List (α × β)) :
    ((k, v) :: l).lookup k' = if k' = k then some v else l.lookup k' := by
  rw [List.lookup_cons]
  by_cases h : k' = k
  · simp [h]
  · have : (k' == k) = false := by simpa using h
    simp [h, this]

theorem lookup_filter_if [DecidableEq α] (k' k : α) (l : List (α × β)) :
    (l.filter (fun p => decide (p.1 ≠ k))).lookup k' = if k' = k then none else l.lookup k' := by
  induction l with
  | nil => simp
  | cons p l ih =>
    obtain ⟨a, b⟩ := p
    rw [List.filter_cons]
    by_cases ha : a = k
    · subst ha
      simp only [ne_eq, not_true, decide_false, Bool.false_eq_true, if_false]
      rw [ih, lookup_cons_if]
      split <;> rfl
    · simp only [ne_eq, ha, not_false_eq_true, decide_true, if_true]
      rw [lookup_cons_if, ih, lookup_cons_if]
      by_cases h : k' = a
      · subst h; simp [ha]
      · simp [h]

theorem lookup_map_if [DecidableEq α] (k' k : α) (f : β → β) (l : List (α × β)) :
    (l.map fun p => if p.1 = k then (p.1, f p.2) else p).lookup k' =
      if k' = k then (l.lookup k').map f else l.lookup k' := by
  induction l with
  | nil => simp
  | cons p l ih =>
    obtain ⟨a, b⟩ := p
    rw [List.map_cons]
    by_cases ha : a = k
    · subst ha
      simp only [if_true]
      rw [lookup_cons_if, lookup_cons_if, ih]
      by_cases h : k' = a <;> simp [h]
    · simp only [ha, if_false]
      rw [lookup_cons_if, lookup_cons_if, ih]
      by_cases h : k' = a
      · subst h; simp [ha]
      · simp [h]

theorem tGet_tInsert (k k' : Nat) (j : Job) (t : List (Nat × Job)) :
    tGet k' (tInsert k j t) = if k' = k then some j else tGet k' t := by
  induction t with
  | nil => simp [tInsert, tGet, lookup_cons_if]
  | cons p t ih =>
    obtain ⟨a, b⟩ := p
    unfold tInsert
    split
    · simp [tGet, lookup_cons_if]
    · split
      · next h =>
        subst h
        simp only [tGet, lookup_cons_if]
        by_cases h : k' = k <;> simp [h]
      · next h =>
        simp only [tGet, lookup_cons_if] at ih ⊢
        rw [ih]
        by_cases h' : k' = a
        · subst h'
          have : ¬ k' = k := fun e => h e.symm
          simp [this]
        · simp [h']

theorem tGet_tRemove (k k' : Nat) (t : List (Nat × Job)) :
    tGet k' (tRemove k t) = if k' = k then none else tGet k' t := lookup_filter_if k' k t

theorem mem_tInsert {k : Nat} {j : Job} {t : List (Nat × Job)} {p : Nat × Job}
    (h : p ∈ tInsert k j t) : p = (k, j) ∨ p ∈ t := by
  induction t with
  | nil => simp [tInsert] at h; exact .inl h
  | cons q t ih =>
    obtain ⟨a, b⟩ := q
    unfold tInsert at h
    split at h
    · rcases List.mem_cons.1 h with h | h
      · exact .inl h
      · exact .inr h
    · split at h
      · rcases List.mem_cons.1 h with h | h
        · exact .inl h
        · exact .inr (List.mem_cons_of_mem _ h)
      · rcases List.mem_cons.1 h with h | h
        · exact .inr (h ▸ List.mem_cons_self)
        · rcases ih h with h | h
          · exact .inl h
          · exact .inr (List.mem_cons_of_mem _ h)

theorem sorted_tInsert {k : Nat} {j : Job} {t : List (Nat × Job)}
    (h : t.Pairwise (fun a b => a.1 < b.1)) : (tInsert k j t).Pairwise (fun a b => a.1 < b.1) := by
  induction t with
  | nil => simp [tInsert]
  | cons q t ih =>
    obtain ⟨a, b⟩ := q
    rw [List.pairwise_cons] at h
    unfold tInsert
    split
    · next hk =>
      rw [List.pairwise_cons, List.pairwise_cons]
      refine ⟨fun p hp => ?_, h⟩
      rcases List.mem_cons.1 hp with rfl | hp
      · exact hk
      · exact Nat.lt_trans hk (h.1 p hp)
    · split
      · next hk =>
        subst hk
        rw [List.pairwise_cons]
        exact ⟨fun p hp => h.1 p hp, h.2⟩
      · next h1 h2 =>
        rw [List.pairwise_cons]
        refine ⟨fun p hp => ?_, ih h.2⟩
        rcases mem_tInsert hp with rfl | hp
        · show a < k
          omega
        · exact h.1 p hp

/-- In a sorted table the jobs are the lookups. -/
theorem tGet_iff {t : List (Nat × Job)} (h : t.Pairwise (fun a b => a.1 < b.1)) {k : Nat} {j : Job} :
    tGet k t = some j ↔ (k, j) ∈ t := by
  constructor
  · exact fun e => lookup_mem e
  · intro hm
    induction t with
    | nil => cases hm
    | cons q t ih =>
      obtain ⟨a, b⟩ := q
      rw [List.pairwise_cons] at h
      rw [tGet, lookup_cons_if]
      rcases List.mem_cons.1 hm with e | hm
      · cases e; simp
      · have := h.1 _ hm
        simp only at this
        rw [if_neg (by omega)]
        exact ih h.2 hm

theorem tGet_none {t : List (Nat × Job)} {k : Nat} (h : ∀ p ∈ t, p.1 ≠ k) : tGet k t = none := by
  rcases e : tGet k t with _ | j
  · rfl
  · exact absurd rfl (h _ (lookup_mem e))

/-- Id and own id of every entry. -/
def tags (t : List (Nat × Job)) : List (Nat × Nat) := t.map fun p => (p.1, p.2.jobId)

namespace Spec.TableOk

theorem of_tags {jc jc' : JobControl} (h : TableOk jc) (ht : tags jc'.table = tags jc.table)
    (hn : jc'.nextId = jc.nextId) : TableOk jc' := by
  have hs : ∀ t : List (Nat × Job), t.Pairwise (fun a b => a.1 < b.1) ↔
      (tags t).Pairwise (fun a b => a.1 < b.1) := by
    intro t; unfold tags; rw [List.pairwise_map]
  have hm : ∀ p ∈ jc'.table, ∃ q ∈ jc.table, q.1 = p.1 ∧ q.2.jobId = p.2.jobId := by
    intro p hp
    have : (p.1, p.2.jobId) ∈ tags jc.table := by
      rw [← ht]; exact List.mem_map_of_mem (f := fun p : Nat × Job => (p.1, p.2.jobId)) hp
    obtain ⟨q, hq, e⟩ := List.mem_map.1 this
    simp only [Prod.mk.injEq] at e
    exact ⟨q, hq, e.1, e.2⟩
  refine ⟨?_, fun p hp => ?_, fun p hp => ?_⟩
  · rw [hs, ht, ← hs]; exact h.sorted
  · obtain ⟨q, hq, e, _⟩ := hm p hp
    rw [hn, ← e]; exact h.small q hq
  · obtain ⟨q, hq, e1, e2⟩ := hm p hp
    rw [← e1, ← e2]; exact h.own q hq

theorem modJob {jc : JobControl} (h : TableOk jc) (id : Nat) (f : Job → Job)
    (hf : ∀ j, (f j).jobId = j.jobId) : TableOk (jc.modJob id f) := by
  refine h.of_tags ?_ rfl
  simp only [JobControl.modJob, tags, List.map_map]
  apply List.map_congr_left
  intro p _
  simp only [Function.comp]
  split
  · simp [hf]
  · rfl

theorem updatePid {jc : JobControl} (h : TableOk jc) (id : Nat) (pid : Int) :
    TableOk (jc.updatePid id pid) := h.of_tags rfl rfl

theorem createJob {jc : JobControl} (h : TableOk jc) (ps : List Process) (b : Bool) :
    TableOk (jc.createJob ps b).2 where
  sorted := sorted_tInsert h.sorted
  small p hp := by
    rcases mem_tInsert hp with rfl | hp
    · exact Nat.lt_succ_self _
    · exact Nat.lt_succ_of_lt (h.small p hp)
  own p hp := by
    rcases mem_tInsert hp with rfl | hp
    · rfl
    · exact h.own p hp

theorem last_max {t : List (Nat × Job)} (h : t.Pairwise (fun a b => a.1 < b.1)) {k : Nat} {j : Job}
    (hl : t.getLast? = some (k, j)) : ∀ p ∈ t, p.1 ≤ k := by
  intro p hp
  obtain ⟨ys, rfl⟩ := List.getLast?_eq_some_iff.1 hl
  rw [List.pairwise_append] at h
  rcases List.mem_append.1 hp with hp | hp
  · exact Nat.le_of_lt (h.2.2 p hp _ (List.mem_singleton.2 rfl))
  · rw [List.mem_singleton.1 hp]; exact Nat.le_refl _

theorem updateNextId {jc : JobControl} (hs : jc.table.Pairwise (fun a b => a.1 < b.1))
    (ho : ∀ p ∈ jc.table, p.2.jobId = p.1) : TableOk jc.updateNextId := by
  unfold JobControl.updateNextId
  rcases hl : jc.table.getLast? with _ | ⟨k, j⟩
  · have := List.getLast?_eq_none_iff.1 hl
    exact ⟨hs, by simp [this], ho⟩
  · exact ⟨hs, fun p hp => Nat.lt_succ_of_le (last_max hs hl p hp), ho⟩

theorem remove {jc : JobControl} (h : TableOk jc) (id : Nat) :
    TableOk { jc with table := tRemove id jc.table } where
  sorted := h.sorted.filter _
  small p hp := h.small p (List.mem_filter.1 hp).1
  own p hp := h.own p (List.mem_filter.1 hp).1

theorem insert {jc : JobControl} (h : TableOk jc) {id : Nat} {j : Job} (hi : id < jc.nextId)
    (hj : j.jobId = id) : TableOk { jc with table := tInsert id j jc.table } where
  sorted := sorted_tInsert h.sorted
  small p hp := by
    rcases mem_tInsert hp with rfl | hp
    · exact hi
    · exact h.small p hp
  own p hp := by
    rcases mem_tInsert hp with rfl | hp
    · exact hj
    · exact h.own p hp

theorem noteStopped_jobId (j : Job) : (JobControl.noteStopped j).jobId = j.jobId := by
  unfold JobControl.noteStopped
  repeat' split
  all_goals rfl

theorem deleteJob {jc : JobControl} (h : TableOk jc) (id : Nat) : TableOk (jc.deleteJob id) := by
  unfold JobControl.deleteJob
  rcases hg : tGet id jc.table with _ | job
  · exact h
  · have hm : (id, job) ∈ jc.table := lookup_mem hg
    simp only
    split
    · exact h.remove id
    · split
      · exact (h.remove id).insert (h.small _ hm) ((noteStopped_jobId job).trans (h.own _ hm))
      · exact updateNextId (h.remove id).sorted (h.remove id).own

theorem deleteJobPid {jc jc' : JobControl} (h : TableOk jc) {pid : Int}
    (e : jc.deleteJobPid pid = some jc') : TableOk jc' := by
  unfold JobControl.deleteJobPid at e
  rcases hp : jc.pids.lookup pid with _ | id
  · rw [hp] at e; cases e; exact h
  · rw [hp] at e
    simp only at e
    rcases hg : tGet id jc.table with _ | job
    · rw [hg] at e; cases e; exact h
    · rw [hg] at e
      have hm : (id, job) ∈ jc.table := lookup_mem hg
      simp only at e
      split at e
      · cases e
      · split at e
        · cases e
          exact (h.remove id).insert (h.small _ hm) ((noteStopped_jobId job).trans (h.own _ hm))
        · cases e
          exact updateNextId (h.remove id).sorted (h.remove id).own

theorem scan_tags {held : List Nat} {pid : Int} {st : WStatus} {cur : Option Nat}
    {t : List (Nat × Job)} {r : WaitScan} (h : scanJobs held pid st cur t = some r) :
    tags r.table = tags t := by
  induction t generalizing r with
  | nil => unfold scanJobs at h; cases h; rfl
  | cons p t ih =>
    obtain ⟨id, j⟩ := p
    unfold scanJobs at h
    split at h
    · rcases hs : scanJobs held pid st cur t with _ | r'
      · rw [hs] at h; cases h
      · rw [hs] at h; cases h
        have := ih hs
        simp only [tags, List.map_cons] at this ⊢
        rw [this]
    · simp only at h
      split at h
      · cases h
      · split at h
        · split at h
          · cases h; rfl
          · cases h; rfl
        · rcases hs : scanJobs held pid st cur t with _ | r'
          · rw [hs] at h; cases h
          · rw [hs] at h; cases h
            have := ih hs
            simp only [tags, List.map_cons] at this ⊢
            rw [this]

theorem clear {jc : JobControl} (h : TableOk jc) : TableOk jc.clearCompleted := by
  unfold JobControl.clearCompleted
  generalize (jc.table.filter _).map Prod.fst = ids
  induction ids generalizing jc with
  | nil => exact h
  | cons i ids ih => exact ih (h.deleteJob i)

end Spec.TableOk

theorem JobOp_ok {o : JobOp} {jc jc' : JobControl} (h : TableOk jc) (e : o.run jc = some jc') :
    TableOk jc' := by
  cases o with
  | create ps b => cases e; exact TableOk.createJob h ps b
  | setPid id i pid => cases e; exact TableOk.updatePid (TableOk.modJob h id (startProc i pid) fun _ => rfl) id pid
  | delete id => cases e; exact TableOk.deleteJob h id
  | deletePid pid => exact TableOk.deleteJobPid h e
  | resume id b => cases e; exact TableOk.modJob h id _ fun _ => rfl
  | reap held st =>
    simp only [JobOp.run] at e
    rcases hs : scanJobs held (waitPid st) st jc.current jc.table with _ | r
    · rw [hs] at e; cases e
    · rw [hs] at e; cases e
      exact TableOk.of_tags h (TableOk.scan_tags hs) rfl
  | setCurrent id => cases e; exact TableOk.of_tags h rfl rfl
  | clear => cases e; exact TableOk.clear h

theorem runJobOps_ok {os : List JobOp} {jc jc' : JobControl} (h : TableOk jc)
    (e : runJobOps jc os = some jc') : TableOk jc' := by
  induction os generalizing jc with
  | nil => cases e; exact h
  | cons o os ih =>
    simp only [runJobOps] at e
    rcases ho : o.run jc with _ | jc1
    · rw [ho] at e; cases e
    · rw [ho] at e
      exact ih (JobOp_ok h ho) e

/-! ## Invariants of the job table in a session -/

/-- What has to be checked of an invariant of the job table (and the events so far). -/
structure JobInv (w : World) (I : JobControl → List Event → Prop) : Prop where
  event : ∀ {jc tr} e, I jc tr → I jc (e :: tr)
  create : ∀ {jc tr} ps b, (∀ p ∈ ps, p.pid = -1) → I jc tr → I (jc.createJob ps b).2 tr
  delete : ∀ {jc tr} id, I jc tr → I (jc.deleteJob id) tr
  resume : ∀ {jc tr} id b, I jc tr →
    I (jc.modJob id fun j => { j with state := .running, background := b }) tr
  scan : ∀ {jc tr} held pid st r, scanJobs held pid st jc.current jc.table = some r → I jc tr →
    I { jc with table := r.table, current := r.current } tr
  spawn : ∀ {jc tr} id i pid e evs, w.fork tr = some pid → I jc tr →
    I ((jc.modJob id (setPidAt i pid)).updatePid id pid) (.spawn pid e evs :: tr)
  mark : ∀ {jc tr} id pid st, I jc tr →
    I (jc.modJob id fun j => { j with processes := setStatusFirst pid st j.processes }) tr
  finish : ∀ {jc tr} id st, I jc tr →
    I (jc.modJob id fun j => { j with stopStatus := st, state := .finished }) tr
  init : I {} []

/-- The relation between states that an invariant gives. -/
def InvRel (I : JobControl → List Event → Prop) (s s' : Sh) : Prop := I s.jc s.trace → I s'.jc s'.trace

namespace JobInv

variable {w : World} {I : JobControl → List Event → Prop}

theorem seq : Seq (InvRel I) (fun _ _ => True) where
  refl _ := id
  trans h1 h2 g := h2 (h1 g)
  rq _ := trivial
  rqq _ _ := trivial

theorem same {s s' : Sh} (h1 : s'.jc = s.jc) (h2 : s'.trace = s.trace) : InvRel I s s' := by
  unfold InvRel; rw [h1, h2]; exact id

theorem frame (J : JobInv w I) : Frame w (fun _ => True) (InvRel I) (fun _ _ => True) where
  toSeq := seq
  trace _ e _ := J.event e
  masked _ _ := same rfl rfl
  handlers _ := same rfl rfl
  createJob _ ps b h := J.create ps b h
  deleteJob _ id := J.delete id
  resumeJob _ id b := J.resume id b
  scan s pid st r h := J.scan s.held pid st r h
  waited _ _ _ _ := J.event _
  gotSigchld _ _ := same rfl rfl
  exitStatus _ _ := same rfl rfl
  subst _ x _ := subst_of seq (fun _ _ _ => same rfl rfl) (fun _ e _ => J.event e) x
  fork _ b id procs _ :=
    fork_of seq (fun _ _ _ => same rfl rfl) (fun _ e _ => J.event e)
      (fun _ id i pid e evs h => J.spawn id i pid e evs h) b id _ procs 0 _ _
  setEnv _ _ _ := same rfl rfl
  aliases _ _ := same rfl rfl
  cwd _ _ _ _ := J.event _
  addVar _ _ _ _ := same rfl rfl
  addVarPos _ _ _ _ _ := same rfl rfl
  addFunction _ _ _ := same rfl rfl
  removeVar _ _ := same rfl rfl
  removeFunction _ _ := same rfl rfl
  removeContext _ _ := same rfl rfl
  addVarReadonly _ _ _ _ := same rfl rfl
  setVarReadonly _ _ _ _ := same rfl rfl
  envVar _ _ _ _ _ _ := same rfl rfl
  envFun _ _ _ _ _ := same rfl rfl
  nameSelf _ _ _ _ := same rfl rfl
  func _ c h := func_of seq (fun _ _ => same rfl rfl) h.2 c
  ctxFile _ file ns h := ctxFile_of seq (fun _ _ => same rfl rfl) (fun _ e _ => J.event e) h.2 file ns

theorem argLoop (J : JobInv w I) (as : List Str) (st : ArgState) :
    Keeps (InvRel I) (fun _ _ => True) (argLoop as st) := by
  have S := seq (I := I)
  induction as generalizing st with
  | nil => exact .pure S _
  | cons a as ih =>
    unfold Rsh.argLoop
    refine .bind S (J.frame.printlnM _) fun _ => ?_
    have h1 : ∀ a, Keeps (InvRel I) (fun _ _ => True) (setScriptName a) := fun a => .modS fun s => same rfl rfl
    have h2 : ∀ a i, Keeps (InvRel I) (fun _ _ => True) (setInputArgs a i) := fun a i => J.frame.addVarAt _ _
    split
    · exact .panicM S _
    · refine .ite (.ite (.pure S _) (ih _)) (.ite (.bind S (h1 _) fun _ => ih _)
        (.ite (.bind S (h2 _ _) fun _ => ih _) (.ite (.bind S (h1 _) fun _ => ih _) (ih _))))

theorem startUp (J : JobInv w I) (n : Nat) (args : List Str) :
    Keeps (InvRel I) (fun _ _ => True) (startUp w n args) := by
  have S := seq (I := I)
  have F := J.frame
  have hr := F.readStartup (fun _ => trivial) n
  have hs : ∀ g, Keeps (InvRel I) (fun _ _ => True) (setSignal g) := fun g =>
    setSignal_of S (fun _ _ => same rfl rfl) (fun _ _ => same rfl rfl) g
  unfold Spec.startUp
  refine .bind S ?_ fun _ => .bind S (.modS fun s => same rfl rfl) fun _ =>
    .bind S (.bind S (.getS S) fun _ => F.addVarAt _ _) fun _ => .bind S (hr _) fun _ =>
    .bind S (hr _) fun _ => .bind S (hs _) fun _ => .bind S (hs _) fun _ => .bind S (hs _) fun _ =>
    .modS fun s => same rfl rfl
  unfold parseArgs
  refine .ite (.pure S _) (.bind S (J.argLoop _ _) fun st => .ite (.bind S (.modS fun s => same rfl rfl)
    fun _ => .bind S (F.printlnM _) fun _ => .pure S _) (.pure S _))

/-- An invariant of the job table holds at every prompt. -/
theorem atPrompt (J : JobInv w I) {s : Sh} (h : AtPrompt w s) : I s.jc s.trace := by
  have F := J.frame
  have S := seq (I := I)
  induction h with
  | start h => exact (J.startUp _ _).ok h J.init
  | line _ h ih =>
    exact (Keeps.bind S F.prompt fun _ => F.interactiveLine (fun _ => trivial) _ _).ok h ih
  | interrupted _ h ih => exact F.prompt.ok h ih
  | sig _ h ih =>
    exact (F.deliver (fun _ id pid st => J.mark id pid st) (fun _ id st => J.finish id st)
      F.waitForJob _).ok h ih
  | waits _ ih => exact ih

end JobInv

theorem tableInv (w : World) : JobInv w (fun jc _ => TableOk jc) where
  event _ h := h
  create ps b _ h := h.createJob ps b
  delete id h := h.deleteJob id
  resume id b h := h.modJob id _ fun _ => rfl
  scan _ _ _ _ e h := h.of_tags (TableOk.scan_tags e) rfl
  spawn id i pid _ _ _ h := (h.modJob id (setPidAt i pid) fun _ => rfl).updatePid id pid
  mark id _ _ h := h.modJob id _ fun _ => rfl
  finish id _ h := h.modJob id _ fun _ => rfl
  init := ⟨by simp, by simp, by simp⟩

/-! ## Pids -/

/-- Ids with the pids of their processes. -/
def pidTags (t : List (Nat × Job)) : List (Nat × List Int) :=
  t.map fun p => (p.1, p.2.processes.map Process.pid)

/-- Every started process leads to its job. -/
def PidsOk (jc : JobControl) : Prop :=
  ∀ id j, (id, j) ∈ jc.table → ∀ p ∈ j.processes, p.pid ≠ -1 → jc.pids.lookup p.pid = some id

theorem PidsOk.of_tags {jc jc' : JobControl} (h : PidsOk jc) (ht : pidTags jc'.table = pidTags jc.table)
    (hp : jc'.pids = jc.pids) : PidsOk jc' := by
  intro id j hm p hpm hne
  have : (id, j.processes.map Process.pid) ∈ pidTags jc.table := by
    rw [← ht]
    exact List.mem_map_of_mem (f := fun p : Nat × Job => (p.1, p.2.processes.map Process.pid)) hm
  obtain ⟨⟨id', j'⟩, hq, e⟩ := List.mem_map.1 this
  simp only [Prod.mk.injEq] at e
  obtain ⟨rfl, e⟩ := e
  have : p.pid ∈ j'.processes.map Process.pid := by rw [e]; exact List.mem_map_of_mem hpm
  obtain ⟨p', hp', e'⟩ := List.mem_map.1 this
  rw [hp, ← e']
  exact h _ j' hq p' hp' (by rw [e']; exact hne)

theorem pidTags_modJob (jc : JobControl) (id : Nat) (f : Job → Job)
    (hf : ∀ j, (f j).processes.map Process.pid = j.processes.map Process.pid) :
    pidTags (jc.modJob id f).table = pidTags jc.table := by
  simp only [JobControl.modJob, pidTags, List.map_map]
  apply List.map_congr_left
  intro p _
  simp only [Function.comp]
  split
  · simp [hf]
  · rfl

theorem markProcs_pids (pid : Int) (st : WStatus) (ps : List Process) :
    (markProcs pid st ps).map Process.pid = ps.map Process.pid := by
  unfold markProcs
  rw [List.map_map]
  apply List.map_congr_left
  intro p _
  simp only [Function.comp]
  split <;> rfl

theorem scan_pidTags {held : List Nat} {pid : Int} {st : WStatus} {cur : Option Nat}
    {t : List (Nat × Job)} {r : WaitScan} (h : scanJobs held pid st cur t = some r) :
    pidTags r.table = pidTags t := by
  induction t generalizing r with
  | nil => unfold scanJobs at h; cases h; rfl
  | cons p t ih =>
    obtain ⟨id, j⟩ := p
    unfold scanJobs at h
    split at h
    · rcases hs : scanJobs held pid st cur t with _ | r'
      · rw [hs] at h; cases h
      · rw [hs] at h; cases h
        have := ih hs
        simp only [pidTags, List.map_cons] at this ⊢
        rw [this]
    · simp only at h
      split at h
      · cases h
      · split at h
        · split at h
          · cases h
            simp only [pidTags, List.map_cons, markProcs_pids]
          · cases h
            simp only [pidTags, List.map_cons, markProcs_pids]
        · rcases hs : scanJobs held pid st cur t with _ | r'
          · rw [hs] at h; cases h
          · rw [hs] at h; cases h
            have := ih hs
            simp only [pidTags, List.map_cons, markProcs_pids] at this ⊢
            rw [this]

theorem lookup_pidInsert (p q : Int) (id : Nat) (m : List (Int × Nat)) :
    (pidInsert p id m).lookup q = if q = p then some id else m.lookup q := by
  unfold pidInsert
  rw [lookup_cons_if, lookup_filter_if]
  by_cases h : q = p <;> simp [h]

theorem lookup_pidRemove (p q : Int) (m : List (Int × Nat)) :
    (pidRemove p m).lookup q = if q = p then none else m.lookup q := lookup_filter_if q p m

theorem lookup_forget (ps : List Process) (q : Int) (m : List (Int × Nat)) :
    (JobControl.forgetPids ps m).lookup q = if q ∈ ps.map Process.pid then none else m.lookup q := by
  unfold JobControl.forgetPids
  induction ps generalizing m with
  | nil => simp
  | cons p ps ih =>
    rw [List.foldl_cons, ih, lookup_pidRemove]
    by_cases h : q ∈ ps.map Process.pid
    · simp only [h, if_true, List.map_cons, List.mem_cons, or_true]
    · by_cases h' : q = p.pid
      · simp [h']
      · simp only [h, if_false, h', List.map_cons, List.mem_cons, or_self]

theorem lookup_createPids (ps : List Process) (id : Nat) (q : Int) (hq : q ≠ -1) (h : ∀ p ∈ ps, p.pid = -1)
    (m : List (Int × Nat)) : (ps.foldl (fun m p => pidInsert p.pid id m) m).lookup q = m.lookup q := by
  induction ps generalizing m with
  | nil => rfl
  | cons p ps ih =>
    rw [List.foldl_cons, ih (fun p hp => h p (List.mem_cons_of_mem _ hp)), lookup_pidInsert,
      h p List.mem_cons_self, if_neg hq]

theorem mem_modify {α : Type} {l : List α} {i : Nat} {f : α → α} {x : α} (h : x ∈ l.modify i f) :
    x ∈ l ∨ ∃ y ∈ l, x = f y := by
  obtain ⟨n, hn, rfl⟩ := List.getElem_of_mem h
  rw [List.getElem_modify]
  have hlt : n < l.length := by simpa using hn
  split
  · exact .inr ⟨_, List.getElem_mem hlt, rfl⟩
  · exact .inl (List.getElem_mem hlt)

namespace PidsOk

theorem createJob {jc : JobControl} (h : PidsOk jc) {ps : List Process} (hps : ∀ p ∈ ps, p.pid = -1)
    (b : Bool) : PidsOk (jc.createJob ps b).2 := by
  intro id j hm p hp hne
  rcases mem_tInsert hm with e | hm
  · cases e
    exact absurd (hps p hp) hne
  · show (ps.foldl _ jc.pids).lookup p.pid = _
    rw [lookup_createPids ps _ _ hne hps]
    exact h id j hm p hp hne

theorem noteStopped_procs (j : Job) : (JobControl.noteStopped j).processes = j.processes := by
  unfold JobControl.noteStopped
  repeat' split
  all_goals rfl

theorem reinsert {jc : JobControl} (h : PidsOk jc) {id : Nat} {j j' : Job} (hm : (id, j) ∈ jc.table)
    (hj : j'.processes = j.processes) :
    PidsOk { jc with table := tInsert id j' (tRemove id jc.table) } := by
  intro id2 j2 hm2 p hp hne
  rcases mem_tInsert hm2 with e | hm2
  · cases e
    exact h id j hm p (hj ▸ hp) hne
  · exact h id2 j2 (List.mem_filter.1 hm2).1 p hp hne

theorem dropJob {jc jc' : JobControl} (h : PidsOk jc) {id : Nat} {j : Job} (hm : (id, j) ∈ jc.table)
    (ht : jc'.table = tRemove id jc.table) (hp : jc'.pids = JobControl.forgetPids j.processes jc.pids) :
    PidsOk jc' := by
  intro id2 j2 hm2 p hpm hne
  rw [ht] at hm2
  have hm2' := List.mem_filter.1 hm2
  have h2 := h id2 j2 hm2'.1 p hpm hne
  rw [hp, lookup_forget, if_neg, h2]
  intro hin
  obtain ⟨q, hq, e⟩ := List.mem_map.1 hin
  have h3 := h id j hm q hq (by rw [e]; exact hne)
  rw [e, h2] at h3
  cases h3
  simp at hm2'

theorem deleteJob {jc : JobControl} (h : PidsOk jc) (id : Nat) : PidsOk (jc.deleteJob id) := by
  unfold JobControl.deleteJob
  rcases hg : tGet id jc.table with _ | job
  · exact h
  · have hm : (id, job) ∈ jc.table := lookup_mem hg
    simp only
    split
    · intro id2 j2 hm2 p hp hne
      exact h id2 j2 (List.mem_filter.1 hm2).1 p hp hne
    · split
      · exact h.reinsert hm (noteStopped_procs job)
      · refine h.dropJob hm ?_ ?_
        · unfold JobControl.updateNextId; split <;> rfl
        · unfold JobControl.updateNextId
          rw [noteStopped_procs]; split <;> rfl

theorem deleteJobPid {jc jc' : JobControl} (h : PidsOk jc) {pid : Int}
    (e : jc.deleteJobPid pid = some jc') : PidsOk jc' := by
  unfold JobControl.deleteJobPid at e
  rcases hp : jc.pids.lookup pid with _ | id
  · rw [hp] at e; cases e; exact h
  · rw [hp] at e
    simp only at e
    rcases hg : tGet id jc.table with _ | job
    · rw [hg] at e; cases e; exact h
    · rw [hg] at e
      have hm : (id, job) ∈ jc.table := lookup_mem hg
      simp only at e
      split at e
      · cases e
      · split at e
        · cases e
          exact h.reinsert hm (noteStopped_procs job)
        · cases e
          refine h.dropJob hm ?_ ?_
          · unfold JobControl.updateNextId; split <;> rfl
          · unfold JobControl.updateNextId
            rw [noteStopped_procs]; split <;> rfl

/-- A process gets a pid that no process in the table has. -/
theorem setPid {jc : JobControl} (h : PidsOk jc) (id i : Nat) (pid : Int)
    (hf : ∀ q ∈ jc.table, ∀ p ∈ q.2.processes, p.pid ≠ pid) :
    PidsOk ((jc.modJob id (startProc i pid)).updatePid id pid) := by
  intro id2 j2 hm p hp hne
  show (pidInsert pid id jc.pids).lookup p.pid = _
  rw [lookup_pidInsert]
  have hm' : (id2, j2) ∈ (jc.modJob id (startProc i pid)).table := hm
  obtain ⟨⟨id3, j3⟩, hq, e⟩ := List.mem_map.1 hm'
  simp only at e
  split at e
  · next hid =>
    cases e
    rcases mem_modify hp with hp | ⟨q, _, rfl⟩
    · rw [if_neg (hf _ hq _ hp)]
      exact h _ j3 hq _ hp hne
    · rw [if_pos rfl, hid]
  · cases e
    rw [if_neg (hf _ hq p hp)]
    exact h _ _ hq p hp hne

end PidsOk

theorem PidsOk.mark {jc : JobControl} (h : PidsOk jc) (id : Nat) (f : Job → Job)
    (hf : ∀ j, (f j).processes.map Process.pid = j.processes.map Process.pid) : PidsOk (jc.modJob id f) :=
  h.of_tags (pidTags_modJob jc id f hf) rfl

theorem PidsOk.clear {jc : JobControl} (h : PidsOk jc) : PidsOk jc.clearCompleted := by
  unfold JobControl.clearCompleted
  generalize (jc.table.filter _).map Prod.fst = ids
  induction ids generalizing jc with
  | nil => exact h
  | cons i ids ih => exact ih (h.deleteJob i)

theorem PidsOk.op {o : JobOp} {jc jc' : JobControl} (h : PidsOk jc) (hf : o.Fair jc)
    (e : o.run jc = some jc') : PidsOk jc' := by
  cases o with
  | create ps b => cases e; exact h.createJob hf b
  | setPid id i pid => cases e; exact h.setPid id i pid hf.2
  | delete id => cases e; exact h.deleteJob id
  | deletePid pid => exact h.deleteJobPid e
  | resume id b => cases e; exact h.mark id _ fun _ => rfl
  | reap held st =>
    simp only [JobOp.run] at e
    rcases hs : scanJobs held (waitPid st) st jc.current jc.table with _ | r
    · rw [hs] at e; cases e
    · rw [hs] at e; cases e
      exact h.of_tags (scan_pidTags hs) rfl
  | setCurrent id => cases e; exact h.of_tags rfl rfl
  | clear => cases e; exact h.clear

theorem runJobOps_pids {os : List JobOp} {jc jc' : JobControl} (h : PidsOk jc) (hf : FairOps jc os)
    (e : runJobOps jc os = some jc') : PidsOk jc' := by
  induction os generalizing jc with
  | nil => cases e; exact h
  | cons o os ih =>
    simp only [runJobOps] at e
    rcases ho : o.run jc with _ | jc1
    · rw [ho] at e; cases e
    · rw [ho] at e
      exact ih (h.op hf.1 ho) (hf.2 _ ho) e

theorem setStatusFirst_pids (pid : Int) (st : WStatus) (ps : List Process) :
    (setStatusFirst pid st ps).map Process.pid = ps.map Process.pid := by
  induction ps with
  | nil => rfl
  | cons p ps ih =>
    unfold setStatusFirst
    split
    · simp
    · simp [ih]

/-- All pids in the table are those of children that were started. -/
def Known (jc : JobControl) (tr : List Event) : Prop :=
  ∀ q ∈ pidTags jc.table, ∀ x ∈ q.2, x = -1 ∨ x ∈ spawnedPids tr

theorem Known.sub {jc jc' : JobControl} {tr : List Event} (h : Known jc tr)
    (hs : ∀ q ∈ jc'.table, ∃ q' ∈ jc.table, q.2.processes = q'.2.processes) : Known jc' tr := by
  intro q hq x hx
  obtain ⟨q0, hq0, rfl⟩ := List.mem_map.1 hq
  obtain ⟨q', hq', e⟩ := hs q0 hq0
  refine h (q'.1, q'.2.processes.map Process.pid) (List.mem_map_of_mem (f := fun p : Nat × Job => (p.1, p.2.processes.map Process.pid)) hq') x ?_
  rw [← e]; exact hx

theorem deleteJob_procs (jc : JobControl) (id : Nat) :
    ∀ q ∈ (jc.deleteJob id).table, ∃ q' ∈ jc.table, q.2.processes = q'.2.processes := by
  have hr : ∀ q ∈ tRemove id jc.table, ∃ q' ∈ jc.table, q.2.processes = q'.2.processes := fun q hq =>
    ⟨q, (List.mem_filter.1 hq).1, rfl⟩
  unfold JobControl.deleteJob
  rcases hg : tGet id jc.table with _ | job
  · exact fun q hq => ⟨q, hq, rfl⟩
  · have hm : (id, job) ∈ jc.table := lookup_mem hg
    simp only
    split
    · exact hr
    · split
      · intro q hq
        rcases mem_tInsert hq with e | hq
        · exact ⟨_, hm, by rw [e]; exact PidsOk.noteStopped_procs job⟩
        · exact hr q hq
      · intro q hq
        apply hr q
        revert hq
        unfold JobControl.updateNextId
        split <;> exact fun h => h

theorem pidInv (w : World) (hw : FreshPids w) : JobInv w (fun jc tr => PidsOk jc ∧ Known jc tr) where
  event e h := by
    refine ⟨h.1, fun q hq x hx => (h.2 q hq x hx).imp id fun h => ?_⟩
    cases e <;> first | exact h | exact List.mem_cons_of_mem _ h
  create ps b hps h := by
    refine ⟨h.1.createJob hps b, fun q hq x hx => ?_⟩
    obtain ⟨q0, hq0, rfl⟩ := List.mem_map.1 hq
    rcases mem_tInsert hq0 with e | hq0
    · subst e
      obtain ⟨p, hp, rfl⟩ := List.mem_map.1 hx
      exact .inl (hps p hp)
    · exact h.2 _ (List.mem_map_of_mem (f := fun p : Nat × Job => (p.1, p.2.processes.map Process.pid)) hq0) x hx
  delete id h := ⟨h.1.deleteJob id, h.2.sub (deleteJob_procs _ id)⟩
  resume id b h := ⟨h.1.mark id _ fun _ => rfl, by
    have := h.2; unfold Known at this ⊢; rwa [pidTags_modJob]; exact fun _ => rfl⟩
  scan _ _ _ r e h := ⟨h.1.of_tags (scan_pidTags e) rfl, by
    have := h.2; unfold Known at this ⊢; rwa [scan_pidTags e]⟩
  spawn {jc tr} id i pid e evs hf h := by
    obtain ⟨hpos, hnew⟩ := hw tr pid hf
    have hK : ∀ q ∈ jc.table, ∀ p ∈ q.2.processes, p.pid = -1 ∨ p.pid ∈ spawnedPids tr := fun q hq p hp =>
      h.2 _ (List.mem_map_of_mem (f := fun p : Nat × Job => (p.1, p.2.processes.map Process.pid)) hq) _
        (List.mem_map_of_mem hp)
    refine ⟨h.1.setPid id i pid fun q hq p hp e => ?_, fun q hq x hx => ?_⟩
    · rcases hK q hq p hp with e' | e'
      · omega
      · exact hnew (e ▸ e')
    · obtain ⟨q0, hq0, rfl⟩ := List.mem_map.1 hq
      obtain ⟨p, hp, rfl⟩ := List.mem_map.1 hx
      obtain ⟨q3, hq3, e3⟩ := List.mem_map.1 (show q0 ∈ (jc.modJob id (setPidAt i pid)).table from hq0)
      have old : ∀ p ∈ q3.2.processes, p.pid = -1 ∨ p.pid ∈ spawnedPids (.spawn pid e evs :: tr) :=
        fun p hp => (hK _ hq3 p hp).imp (fun h => h) fun h => List.mem_cons_of_mem _ h
      split at e3
      · subst e3
        rcases mem_modify hp with hp | ⟨y, _, rfl⟩
        · exact old p hp
        · exact .inr List.mem_cons_self
      · subst e3; exact old p hp
  mark id pid st h := ⟨h.1.mark id _ fun _ => setStatusFirst_pids _ _ _, by
    have := h.2; unfold Known at this ⊢; rwa [pidTags_modJob]; exact fun _ => setStatusFirst_pids _ _ _⟩
  finish id st h := ⟨h.1.mark id _ fun _ => rfl, by
    have := h.2; unfold Known at this ⊢; rwa [pidTags_modJob]; exact fun _ => rfl⟩
  init := ⟨fun _ _ h => (List.not_mem_nil h).elim, fun _ h => (List.not_mem_nil h).elim⟩

/-! ## The effect of deleting a job -/

theorem noteStopped_isStopped (j : Job) :
    (JobControl.noteStopped j).stopStatus.isStopped = true ↔ FirstStopped j := by
  unfold JobControl.noteStopped FirstStopped
  rcases hh : j.processes.head? with _ | p
  · simp
  · simp only [Option.some.injEq]
    rcases hs : p.status with _ | st
    · simp only
      constructor
      · exact .inl
      · rintro (h | ⟨q, st, rfl, h, _⟩)
        · exact h
        · rw [hs] at h; cases h
    · simp only
      split
      · next h => simp only [h, true_iff]; exact .inr ⟨p, st, rfl, hs, h⟩
      · next h =>
        constructor
        · exact .inl
        · rintro (h' | ⟨q, st', rfl, h', h2⟩)
          · exact h'
          · rw [hs] at h'; cases h'; exact absurd h2 h

theorem getJob_updateNextId (jc : JobControl) (i : Nat) : jc.updateNextId.getJob i = jc.getJob i := by
  unfold JobControl.updateNextId JobControl.getJob
  split <;> rfl

theorem pids_updateNextId (jc : JobControl) : jc.updateNextId.pids = jc.pids := by
  unfold JobControl.updateNextId
  split <;> rfl

end Rsh
