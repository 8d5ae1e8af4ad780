import Verif.Proofs.Report

/-!
# Waiting, for every table of jobs and every sequence of reports
-/

namespace Rsh

open Spec

theorem jobStateOf_eq (st : JobState) (hst : st ≠ .running) (ps : List Process) :
    jobStateOf st ps = if ps.any (fun p => p.status.isNone) then .running
      else if ps.any (fun p => p.status.any WStatus.isStopped) then .stopped else st := by
  induction ps generalizing st with
  | nil => rfl
  | cons p ps ih =>
    unfold jobStateOf
    cases hp : p.status with
    | none => simp [jobStateOf_running, hp]
    | some x =>
      simp only [hp, reduceCtorEq, if_false, if_neg hst, List.any_cons, Option.isNone_some, Bool.false_or,
        Option.any_some]
      cases hx : x.isStopped with
      | true =>
        simp only [if_true, Bool.true_or]
        rw [ih .stopped (by simp)]
        simp
      | false =>
        simp only [Bool.false_eq_true, if_false, Bool.false_or]
        exact ih st hst

theorem reportedTo_ids (pid : Int) (st : WStatus) (j : Job) : (reportedTo pid st j).jobId = j.jobId := rfl

theorem halted_iff (pid : Int) (st : WStatus) (j : Job) :
    Halted (reportedTo pid st j) ↔ jobStateOf .finished (markProcs pid st j.processes) = .stopped := by
  rw [jobStateOf_eq _ (by simp)]
  unfold Halted
  show ((∀ p ∈ markProcs pid st j.processes, _) ∧ ∃ p ∈ markProcs pid st j.processes, _) ↔ _
  generalize markProcs pid st j.processes = ps
  by_cases h : ps.any (fun p => p.status.isNone)
  · rw [if_pos h]
    simp only [reduceCtorEq, iff_false, not_and]
    intro h1
    rw [List.any_eq_true] at h
    obtain ⟨p, hp, hn⟩ := h
    exact absurd (Option.isNone_iff_eq_none.1 hn) (h1 p hp)
  · rw [if_neg h]
    have h1 : ∀ p ∈ ps, p.status ≠ none := by
      intro p hp e
      exact h (List.any_eq_true.2 ⟨p, hp, by rw [e]; rfl⟩)
    have h2 : (∃ p ∈ ps, ∃ st, p.status = some st ∧ st.isStopped = true) ↔
        ps.any (fun p => p.status.any WStatus.isStopped) = true := by
      rw [List.any_eq_true]
      refine exists_congr fun p => and_congr_right fun _ => ?_
      cases p.status <;> simp
    rw [h2]
    by_cases h3 : ps.any (fun p => p.status.any WStatus.isStopped)
    · rw [if_pos h3]; exact ⟨fun _ => rfl, fun _ => ⟨h1, h3⟩⟩
    · rw [if_neg h3]; simp [h3]

/-- A report that passes by some jobs. -/
theorem scanJobs_pre (pid : Int) (st : WStatus) (cur : Option Nat) {pre : List (Nat × Job)}
    (h : ∀ q ∈ pre, PassedBy pid q) (t : List (Nat × Job)) :
    scanJobs [] pid st cur (pre ++ t) =
      (scanJobs [] pid st cur t).map fun r => { r with table := pre.map passed ++ r.table } := by
  induction pre with
  | nil =>
    rw [List.nil_append]
    cases scanJobs [] pid st cur t <;> rfl
  | cons q pre ih =>
    obtain ⟨id, j⟩ := q
    have ih := ih fun q hq => h q (List.mem_cons_of_mem _ hq)
    rw [List.cons_append, scanJobs]
    by_cases hf : j.state = .finished
    · rw [if_pos (by simp [hf]), ih]
      simp only [Option.map_map]
      congr 1
      funext r
      simp [passed, hf]
    · obtain ⟨⟨p, x, hp, hx⟩, hn⟩ := h (id, j) List.mem_cons_self hf
      rw [if_neg (by simp [hf])]
      have hm : markProcs pid st j.processes = j.processes := by
        unfold markProcs
        conv => rhs; rw [← List.map_id j.processes]
        apply List.map_congr_left
        intro p hp
        rw [if_neg (hn p hp)]; rfl
      have hhit : (j.processes.any fun p => decide (p.pid = pid)) = false := by
        rw [List.any_eq_false]
        intro p hp
        simpa using hn p hp
      simp only at hp
      simp only [hm, hp, Option.bind_some, hx, hhit, Bool.false_eq_true, if_false]
      rw [ih]
      simp only [Option.map_map]
      congr 1
      funext r
      simp [passed, hf, hp, hx]

theorem owner_pre {pid : Int} {pre : List (Nat × Job)} (h : ∀ q ∈ pre, PassedBy pid q) (t : List (Nat × Job)) :
    owner pid (pre ++ t) = owner pid t := by
  unfold owner
  rw [List.find?_append, List.find?_eq_none.2, Option.none_or]
  intro q hq
  have := h q hq
  simp only [Bool.and_eq_true, bne_iff_ne, ne_eq, List.any_eq_true, beq_iff_eq, not_and, not_exists]
  intro h1 p hp
  exact (this h1).2 p hp

theorem owner_none {pid : Int} {t : List (Nat × Job)} (h : ∀ q ∈ t, PassedBy pid q) : owner pid t = none := by
  have := owner_pre h []
  rw [List.append_nil] at this
  rw [this]
  rfl

theorem owner_member {pid : Int} {pre post : List (Nat × Job)} {id : Nat} {j : Job} (h : ∀ q ∈ pre, PassedBy pid q)
    (ho : j.state ≠ .finished) (hm : ∃ p ∈ j.processes, p.pid = pid) : owner pid (pre ++ (id, j) :: post) = some id := by
  rw [owner_pre h]
  unfold owner
  rw [List.find?_cons_of_pos]
  · rfl
  · obtain ⟨p, hp, e⟩ := hm
    simp only [Bool.and_eq_true, bne_iff_ne, ne_eq, List.any_eq_true, beq_iff_eq]
    exact ⟨ho, p, hp, e⟩

/-- What the loop over the table does is what `Report` says. -/
theorem scanJobs_report {pid : Int} {st : WStatus} {t t' : List (Nat × Job)} {cur cur' : Option Nat}
    (h : Report pid st t cur t' cur') :
    scanJobs [] pid st cur t = some ⟨t', owner pid t, cur'⟩ := by
  cases h with
  | stranger h =>
    have := scanJobs_pre pid st cur h []
    rw [List.append_nil] at this
    rw [owner_none h, this]
    simp [scanJobs]
  | @member pre post _ id j h ho hm hk =>
    rw [owner_member h ho hm]
    rw [scanJobs_pre pid st cur h, scanJobs, if_neg (by simp [ho])]
    obtain ⟨p, x, hp, hx⟩ := hk
    have hp : (markProcs pid st j.processes).head? = some p := hp
    have hhit : (j.processes.any fun p => decide (p.pid = pid)) = true := by
      rw [List.any_eq_true]
      obtain ⟨p, hp, e⟩ := hm
      exact ⟨p, hp, by simpa using e⟩
    simp only [hp, Option.bind_some, hx, hhit, if_true]
    have hr : ∀ s, (if (markProcs pid st j.processes).any (fun p => p.status.isNone) then j.state
        else if (markProcs pid st j.processes).any (fun p => p.status.any WStatus.isStopped) then .stopped else .finished) = s →
        reportedTo pid st j = { j with processes := markProcs pid st j.processes, stopStatus := x, state := s } := by
      intro s hs
      show Job.mk (markProcs pid st j.processes) _ (((markProcs pid st j.processes).head?.bind Process.status).getD _)
        _ _ = _
      rw [hp, ← hs]
      simp only [Option.bind_some, hx, Option.getD_some]
      rfl
    have hh := halted_iff pid st j
    rw [jobStateOf_eq _ (by simp)] at hh ⊢
    by_cases hn : (markProcs pid st j.processes).any (fun p => p.status.isNone)
    · rw [if_pos hn] at hh ⊢
      rw [if_neg (by simp), if_neg (by rw [hh]; simp)]
      rw [hr j.state (by rw [if_pos hn])]
      rfl
    · rw [if_neg hn] at hh ⊢
      by_cases hs : (markProcs pid st j.processes).any (fun p => p.status.any WStatus.isStopped)
      · rw [if_pos hs] at hh ⊢
        rw [if_pos (by simp), if_pos rfl, if_pos (by rw [hh])]
        rw [hr .stopped (by rw [if_neg hn, if_pos hs])]
        rfl
      · rw [if_neg hs] at hh ⊢
        rw [if_pos (by simp), if_neg (by simp), if_neg (by rw [hh]; simp)]
        rw [hr .finished (by rw [if_neg hn, if_neg hs])]
        rfl

/-- If the loop over the table does not crash, there is a report. -/
theorem report_of_scan {pid : Int} {st : WStatus} (cur : Option Nat) (t : List (Nat × Job)) {r : WaitScan}
    (h : scanJobs [] pid st cur t = some r) : ∃ t' cur', Report pid st t cur t' cur' := by
  suffices hs : (∀ q ∈ t, PassedBy pid q) ∨ ∃ pre id j post, t = pre ++ (id, j) :: post ∧ (∀ q ∈ pre, PassedBy pid q) ∧
      j.state ≠ .finished ∧ (∃ p ∈ j.processes, p.pid = pid) ∧ FirstKnown (reportedTo pid st j) by
    rcases hs with hs | ⟨pre, id, j, post, rfl, h1, h2, h3, h4⟩
    · exact ⟨_, _, .stranger hs⟩
    · exact ⟨_, _, .member h1 h2 h3 h4⟩
  induction t generalizing r with
  | nil => exact .inl fun _ hq => nomatch hq
  | cons q t ih =>
    obtain ⟨id, j⟩ := q
    have next : PassedBy pid (id, j) → ∀ r, scanJobs [] pid st cur t = some r →
        (∀ q ∈ (id, j) :: t, PassedBy pid q) ∨ ∃ pre id' j' post, (id, j) :: t = pre ++ (id', j') :: post ∧
          (∀ q ∈ pre, PassedBy pid q) ∧ j'.state ≠ .finished ∧ (∃ p ∈ j'.processes, p.pid = pid) ∧
          FirstKnown (reportedTo pid st j') := by
      intro hp r hr
      rcases ih hr with h | ⟨pre, id', j', post, rfl, h1, h2⟩
      · refine .inl fun q hq => ?_
        rcases List.mem_cons.1 hq with rfl | hq
        · exact hp
        · exact h q hq
      · refine .inr ⟨(id, j) :: pre, id', j', post, rfl, fun q hq => ?_, h2⟩
        rcases List.mem_cons.1 hq with rfl | hq
        · exact hp
        · exact h1 q hq
    rw [scanJobs] at h
    by_cases hf : j.state = .finished
    · rw [if_pos (by simp [hf])] at h
      cases hs : scanJobs [] pid st cur t with
      | none => rw [hs] at h; cases h
      | some r' => exact next (fun hn => absurd hf hn) r' hs
    · rw [if_neg (by simp [hf])] at h
      simp only at h
      cases hh : (markProcs pid st j.processes).head?.bind Process.status with
      | none => rw [hh] at h; cases h
      | some ss =>
        rw [hh] at h
        simp only at h
        obtain ⟨p, hp, hps⟩ := Option.bind_eq_some_iff.1 hh
        by_cases hm : ∃ p ∈ j.processes, p.pid = pid
        · refine .inr ⟨[], id, j, t, rfl, ?_, hf, hm, p, ss, hp, hps⟩
          intro _ hq; cases hq
        · have hmk : markProcs pid st j.processes = j.processes := by
            unfold markProcs
            conv => rhs; rw [← List.map_id j.processes]
            apply List.map_congr_left
            intro p hp
            rw [if_neg fun e => hm ⟨p, hp, e⟩]; rfl
          have hhit : (j.processes.any fun p => decide (p.pid = pid)) = false := by
            rw [List.any_eq_false]
            intro p hp
            simpa using fun e => hm ⟨p, hp, e⟩
          rw [hhit, if_neg (by simp)] at h
          cases hs : scanJobs [] pid st cur t with
          | none => rw [hs] at h; cases h
          | some r' =>
            rw [hmk] at hp
            exact next (fun _ => ⟨⟨p, ss, hp, hps⟩, fun p hp e => hm ⟨p, hp, e⟩⟩) r' hs

/-- The loop over the table crashes exactly when there is no report. -/
theorem scanJobs_none {pid : Int} {st : WStatus} {t : List (Nat × Job)} {cur : Option Nat} :
    scanJobs [] pid st cur t = none ↔ ∀ t' cur', ¬Report pid st t cur t' cur' := by
  constructor
  · intro h t' cur' hr
    have e := scanJobs_report hr
    rw [h] at e; cases e
  · intro h
    cases hs : scanJobs [] pid st cur t with
    | none => rfl
    | some r =>
      obtain ⟨t', cur', hr⟩ := report_of_scan cur t hs
      exact absurd hr (h _ _)

theorem lookup_map_snd (id : Nat) (f : Job → Job) (t : List (Nat × Job)) :
    (t.map fun q => (q.1, f q.2)).lookup id = (t.lookup id).map f := by
  induction t with
  | nil => rfl
  | cons q t ih =>
    obtain ⟨k, j⟩ := q
    simp only [List.map_cons, List.lookup_cons]
    cases h : id == k <;> simp [ih]

theorem Report.fst {pid : Int} {st : WStatus} {t t' : List (Nat × Job)} {cur cur' : Option Nat}
    (h : Report pid st t cur t' cur') : t'.map Prod.fst = t.map Prod.fst := by
  have hp : ∀ l : List (Nat × Job), (l.map passed).map Prod.fst = l.map Prod.fst := by
    intro l
    rw [List.map_map]
    apply List.map_congr_left
    intro q _
    simp only [Function.comp, passed]
    split <;> rfl
  cases h with
  | stranger => exact hp _
  | member => simp [hp]

theorem Reports.fst {sts : List WStatus} {t t' : List (Nat × Job)} {cur cur' : Option Nat}
    (h : Reports sts t cur t' cur') : t'.map Prod.fst = t.map Prod.fst := by
  induction h with
  | nil => rfl
  | cons h _ ih => rw [ih, Report.fst h]

/-- What holds of a job and is not changed by a report it is passed by or is about. -/
theorem Report.all {pid : Int} {st : WStatus} {t t' : List (Nat × Job)} {cur cur' : Option Nat}
    (h : Report pid st t cur t' cur') {P : Nat → Job → Prop} (h1 : ∀ q, P q.1 q.2 → P (passed q).1 (passed q).2)
    (h2 : ∀ id j, P id j → P id (reportedTo pid st j)) (hP : ∀ q ∈ t, P q.1 q.2) : ∀ q ∈ t', P q.1 q.2 := by
  cases h with
  | stranger _ =>
    intro q hq
    obtain ⟨q0, hq0, rfl⟩ := List.mem_map.1 hq
    exact h1 q0 (hP q0 hq0)
  | member _ _ _ _ =>
    intro q hq
    rcases List.mem_append.1 hq with hq | hq
    · obtain ⟨q0, hq0, rfl⟩ := List.mem_map.1 hq
      exact h1 q0 (hP q0 (List.mem_append_left _ hq0))
    · rcases List.mem_cons.1 hq with rfl | hq
      · exact h2 _ _ (hP (_, _) (List.mem_append_right _ List.mem_cons_self))
      · exact hP q (List.mem_append_right _ (List.mem_cons_of_mem _ hq))

theorem Reports.all {sts : List WStatus} {t t' : List (Nat × Job)} {cur cur' : Option Nat}
    (h : Reports sts t cur t' cur') {P : Nat → Job → Prop} (h1 : ∀ q, P q.1 q.2 → P (passed q).1 (passed q).2)
    (h2 : ∀ st ∈ sts, ∀ id j, P id j → P id (reportedTo (about st) st j)) (hP : ∀ q ∈ t, P q.1 q.2) :
    ∀ q ∈ t', P q.1 q.2 := by
  induction h with
  | nil => exact hP
  | cons h _ ih =>
    exact ih (fun st hst => h2 st (List.mem_cons_of_mem _ hst))
      (Report.all h h1 (h2 _ List.mem_cons_self) hP)

theorem lookup_of_fst {t : List (Nat × Job)} {id : Nat} (h : id ∈ t.map Prod.fst) : ∃ j, t.lookup id = some j := by
  induction t with
  | nil => cases h
  | cons q t ih =>
    obtain ⟨k, j⟩ := q
    rw [List.lookup_cons]
    cases hk : id == k with
    | true => exact ⟨j, rfl⟩
    | false =>
      refine ih ((List.mem_cons.1 h).resolve_left fun e => ?_)
      rw [show id = k from e] at hk
      simp at hk

theorem about_eq (st : WStatus) : about st = waitPid st := by cases st <;> rfl

/-! ## One report -/

theorem expand_ps4 {s : Sh} {ps4 : Str} (h : valueOf s (cs!"PS4") = some ps4) :
    ((do unwrapM .unwrap (← expandVar .none (cs!"PS4"))) : M Str) s = (.ok ps4, s) := by
  unfold expandVar
  rw [if_neg (by simp)]
  simp only [bind_assoc, run_getS_bind, run_pure_bind]
  rw [show (s.ctx.getVar (cs!"PS4")).map Var.value = some ps4 from h]
  rfl

/-- The line without the newline. -/
def statusLine (w : World) (ps4 : Str) (jc : JobControl) (st : WStatus) : Option Str :=
  (bySignal w st).bind fun how => (jc.getJobPid (about st)).map fun j =>
    cs!"[" ++ natStr j.jobId ++ cs!"] " ++ ps4 ++ cs!"\t\t" ++ j.show ++ ' ' :: how

theorem formatStatus_ok (w : World) (st : WStatus) {s : Sh} {ps4 : Str} (h : valueOf s (cs!"PS4") = some ps4) :
    formatStatus w st s = (.ok (statusLine w ps4 s.jc st), s) := by
  have line : ∀ (pid : Int) (tail : Str), ((match s.jc.getJobPid pid with
      | none => pure none
      | some j => do
        let ps4 ← (do unwrapM .unwrap (← expandVar .none (cs!"PS4")))
        pure (some (cs!"[" ++ natStr j.jobId ++ cs!"] " ++ ps4 ++ cs!"\t\t" ++ j.show ++ ' ' :: tail))) :
        M (Option Str)) s = (.ok ((s.jc.getJobPid pid).map fun j =>
          cs!"[" ++ natStr j.jobId ++ cs!"] " ++ ps4 ++ cs!"\t\t" ++ j.show ++ ' ' :: tail), s) := by
    intro pid tail
    cases s.jc.getJobPid pid with
    | none => rfl
    | some j => exact run_bind_ok (expand_ps4 h) _
  unfold formatStatus
  rw [run_getS_bind]
  cases st with
  | signaled pid sig core => exact line _ _
  | stopped pid sig => exact line _ _
  | _ => rfl

/-- The processes of job `id` are known by their pids. -/
def Numbered (pids : List (Int × Nat)) (id : Nat) (t : List (Nat × Job)) : Prop :=
  ∀ q ∈ t, q.1 = id → ∀ p ∈ q.2.processes, pids.lookup p.pid = some id

theorem Numbered.report {pids : List (Int × Nat)} {id : Nat} {pid : Int} {st : WStatus} {t t' : List (Nat × Job)}
    {cur cur' : Option Nat} (hn : Numbered pids id t) (h : Report pid st t cur t' cur') : Numbered pids id t' := by
  refine Report.all h (P := fun i j => i = id → ∀ p ∈ j.processes, pids.lookup p.pid = some id) ?_ ?_ hn
  · intro q hq
    unfold passed
    split
    · exact hq
    · exact hq
  · intro i j hP e p hp
    obtain ⟨p0, hp0, rfl⟩ := List.mem_map.1 hp
    have := hP e p0 hp0
    split <;> exact this

theorem Numbered.own {pids : List (Int × Nat)} {id : Nat} {pid : Int} {st : WStatus} {t t' : List (Nat × Job)}
    {cur cur' : Option Nat} (hn : Numbered pids id t) (h : Report pid st t cur t' cur') (ho : owner pid t = some id) :
    pids.lookup pid = some id ∧ ∃ j, t'.lookup id = some j := by
  have hmem : ∃ q ∈ t, q.1 = id ∧ ∃ p ∈ q.2.processes, p.pid = pid := by
    unfold owner at ho
    cases hf : t.find? fun q => q.2.state != .finished && q.2.processes.any fun p => p.pid == pid with
    | none => rw [hf] at ho; cases ho
    | some q =>
      rw [hf] at ho
      have h1 := List.find?_some hf
      simp only [Bool.and_eq_true, List.any_eq_true, beq_iff_eq] at h1
      exact ⟨q, List.mem_of_find?_eq_some hf, Option.some.inj ho, h1.2⟩
  obtain ⟨q, hq, e, p, hp, rfl⟩ := hmem
  refine ⟨hn q hq e p hp, lookup_of_fst ?_⟩
  rw [Report.fst h]
  exact List.mem_map.2 ⟨q, hq, e⟩

theorem printed_append (a b : List Event) : printed (a ++ b) = printed b ++ printed a := by
  unfold printed
  rw [List.reverse_append, List.filterMap_append]

theorem printed_none {l : List Event} (h : ∀ e ∈ l, ∃ r, e = .waited r) : printed l = [] := by
  unfold printed
  rw [List.filterMap_eq_nil_iff]
  intro e he
  obtain ⟨r, rfl⟩ := h e (List.mem_reverse.1 he)
  rfl

/-- Events of one wait: what was printed and collected. -/
def Collected (new : List Event) (sts : List WStatus) : Prop :=
  (∀ st ∈ sts, .waited (.st st) ∈ new) ∧ ∀ e ∈ new, (∃ r, e = .waited r) ∨ ∃ ch t, e = .print ch t

theorem Collected.append {a b : List Event} {x y : List WStatus} (h1 : Collected a x) (h2 : Collected b y) :
    Collected (a ++ b) (y ++ x) := by
  refine ⟨fun st hst => ?_, fun e he => ?_⟩
  · rcases List.mem_append.1 hst with h | h
    · exact List.mem_append_right _ (h2.1 st h)
    · exact List.mem_append_left _ (h1.1 st h)
  · rcases List.mem_append.1 he with h | h
    · exact h1.2 e h
    · exact h2.2 e h

theorem collected_one (k : Nat) (st : WStatus) :
    Collected (.waited (.st st) :: List.replicate k (.waited .eintr)) [st] := by
  refine ⟨fun x hx => ?_, fun e he => ?_⟩
  · rw [List.mem_singleton.1 hx]; exact List.mem_cons_self
  · rcases List.mem_cons.1 he with rfl | he
    · exact .inl ⟨_, rfl⟩
    · exact .inl ⟨_, (List.mem_replicate.1 he).2⟩

theorem pid?_ne {st : WStatus} (h : st ≠ .stillAlive) : st.pid? ≠ none := by
  cases st <;> simp [WStatus.pid?] at h ⊢

/-- One report is collected. -/
theorem waitOne_report (w : World) (id : Nat) {s : Sh} {k : Nat} {st : WStatus} {rest : List WRes}
    (hw : s.waits = List.replicate k .eintr ++ .st st :: rest) (hp : st ≠ .stillAlive) (hh : s.held = [])
    {ps4 : Str} (hps4 : valueOf s (cs!"PS4") = some ps4) {t' : List (Nat × Job)} {cur' : Option Nat}
    (hr : Report (about st) st s.jc.table s.jc.current t' cur') :
    ∃ s', waitOne w id s = (.ok .some, s') ∧ Waited s s' ∧ s'.waits = rest ∧
      s'.jc = { s.jc with table := t', current := cur' } ∧
      ∃ new, s'.trace = new ++ s.trace ∧ Collected new [st] ∧
        printed new = ((if owner (about st) s.jc.table = some id then
          (statusLine w ps4 { s.jc with table := t', current := cur' } st).toList else []).map
            fun line => ((s.fds.get 1).map FdE.chan, line ++ ['\n'])) := by
  rw [about_eq] at hr ⊢
  have hscan := scanJobs_report hr
  obtain ⟨this, hthis⟩ : ∃ this, this = owner (waitPid st) s.jc.table := ⟨_, rfl⟩
  rw [← hthis] at hscan ⊢
  let s1 : Sh := { s with
    masked := false, gotSigchld := false, waits := rest
    trace := .waited (.st st) :: (List.replicate k (.waited .eintr) ++ s.trace)
    jc := { s.jc with table := t', current := cur' } }
  have hfmt := formatStatus_ok w st (s := s1) hps4
  obtain ⟨o, ho⟩ : ∃ o, o = statusLine w ps4 { s.jc with table := t', current := cur' } st := ⟨_, rfl⟩
  rw [show statusLine w ps4 s1.jc st = o from ho.symm] at hfmt
  rw [← ho]
  have hrun : waitOne w id s = (do
      if this = some id then
        match ← formatStatus w st with
        | some line => printlnM line
        | none => pure ()
      pure .some : M WaitOne) s1 := by
    unfold waitOne interruptsOff
    rw [run_modS_bind, run_bind_ok (waitProcess_hit (s := { s with masked := true }) hw)]
    simp only
    rw [if_neg (pid?_ne hp), run_getS_bind]
    have hscan' : scanJobs s.held (waitPid st) st s.jc.current s.jc.table = some ⟨t', this, cur'⟩ := by
      rw [hh]; exact hscan
    simp only
    rw [hscan', unwrapM_some, run_pure_bind, modJc, run_modS_bind, interruptsOn, run_modS_bind]
    rfl
  have hnone : printed (.waited (.st st) :: List.replicate k (.waited .eintr)) = [] := by
    refine printed_none fun e he => ?_
    rcases List.mem_cons.1 he with rfl | he
    · exact ⟨_, rfl⟩
    · exact ⟨_, (List.mem_replicate.1 he).2⟩
  have plain : waitOne w id s = (.ok .some, s1) → ∃ s', waitOne w id s = (.ok .some, s') ∧ Waited s s' ∧ s'.waits = rest ∧
      s'.jc = { s.jc with table := t', current := cur' } ∧
      ∃ new, s'.trace = new ++ s.trace ∧ Collected new [st] ∧ printed new = [] := fun e =>
    ⟨s1, e, rfl, rfl, rfl, _, rfl, collected_one k st, hnone⟩
  by_cases ht : this = some id
  · rw [if_pos ht] at hrun
    rw [if_pos ht]
    cases o with
    | none =>
      refine plain (hrun.trans ?_)
      exact run_bind_ok hfmt _
    | some line =>
      refine ⟨{ s1 with trace := .print ((s.fds.get 1).map FdE.chan) (line ++ ['\n']) :: s1.trace },
        hrun.trans (run_bind_ok hfmt _), rfl, rfl, rfl,
        .print ((s.fds.get 1).map FdE.chan) (line ++ ['\n']) :: .waited (.st st) ::
          List.replicate k (.waited .eintr), rfl, ?_, ?_⟩
      rotate_left
      · rw [show ∀ (e : Event) l, e :: l = [e] ++ l from fun _ _ => rfl, printed_append, hnone]
        rfl
      refine ⟨fun x hx => List.mem_cons_of_mem _ ((collected_one k st).1 x hx), fun e he => ?_⟩
      rcases List.mem_cons.1 he with rfl | he
      · exact .inr ⟨_, _, rfl⟩
      · exact (collected_one k st).2 e he
  · rw [if_neg ht] at hrun
    rw [if_neg ht]
    exact plain hrun

/-- A report that crashes the shell. -/
theorem waitOne_crash (w : World) (id : Nat) {s : Sh} {k : Nat} {st : WStatus} {rest : List WRes}
    (hw : s.waits = List.replicate k .eintr ++ .st st :: rest) (hp : st ≠ .stillAlive) (hh : s.held = [])
    (hr : ∀ t' cur', ¬Report (about st) st s.jc.table s.jc.current t' cur') :
    ∃ s', waitOne w id s = (.panic .unwrap, s') := by
  rw [about_eq, ← scanJobs_none] at hr
  have hscan' : scanJobs s.held (waitPid st) st s.jc.current s.jc.table = none := by
    rw [hh]; exact hr
  unfold waitOne interruptsOff
  rw [run_modS_bind, run_bind_ok (waitProcess_hit (s := { s with masked := true }) hw)]
  simp only
  rw [if_neg (pid?_ne hp), run_getS_bind]
  simp only
  rw [hscan']
  exact ⟨_, rfl⟩

/-! ## All that is there to be collected -/

theorem doWaitLoop_block (w : World) (id n : Nat) {s : Sh} (h : s.waits ≠ []) :
    doWaitLoop w id (n + 1) true s = doWaitLoop w id (n + 1) false s := by
  unfold doWaitLoop
  rw [run_getS_bind, run_getS_bind, if_neg (by simp), if_neg (by simpa using h)]

theorem collected_waited (ws : List WRes) : Collected (ws.map .waited) [] := by
  refine ⟨(by intro _ h; cases h), fun e he => ?_⟩
  obtain ⟨r, -, rfl⟩ := List.mem_map.1 he
  exact .inl ⟨r, rfl⟩

theorem doWaitLoop_batch (w : World) (id : Nat) {ps4 : Str} {sts : List WStatus} {waits : List WRes}
    (hb : Batch waits sts) (n : Nat) (hn : sts.length < n) {s : Sh} (hw : s.waits = waits) (hh : s.held = [])
    (hps4 : valueOf s (cs!"PS4") = some ps4) {t' : List (Nat × Job)} {cur' : Option Nat}
    (hr : Reports sts s.jc.table s.jc.current t' cur') :
    ∃ s', doWaitLoop w id n false s = (.ok (), s') ∧ Waited s s' ∧
      s'.jc = { s.jc with table := t', current := cur' } ∧
      ∃ new, s'.trace = new ++ s.trace ∧ Collected new sts ∧
        (Numbered s.jc.pids id s.jc.table → ∃ outs, Told w ps4 id sts s.jc.table s.jc.current outs ∧
          printed new = outs.map fun t => ((s.fds.get 1).map FdE.chan, t)) := by
  induction hb generalizing n s with
  | none h =>
    obtain ⟨n, rfl⟩ : ∃ m, n = m + 1 := ⟨n - 1, by simp at hn; omega⟩
    obtain ⟨s', a, b, c, ws, d⟩ := doWaitLoop_noMore w id n (s := s) (by rw [hw]; exact h)
    cases hr
    refine ⟨s', a, c, b, _, d, collected_waited ws, fun _ => ⟨[], .nil _ _, printed_none fun e he => ?_⟩⟩
    obtain ⟨r, -, rfl⟩ := List.mem_map.1 he
    exact ⟨r, rfl⟩
  | @some rest st sts k hp h ih =>
    obtain ⟨n, rfl⟩ : ∃ m, n = m + 1 := ⟨n - 1, by simp at hn; omega⟩
    cases hr with
    | @cons _ _ _ t1 _ _ cur1 _ h1 h2 =>
      obtain ⟨s1, b1, b2, b3, b4, new1, b5, b6, b7⟩ := waitOne_report w id hw hp hh hps4 h1
      have hh1 : s1.held = [] := by rw [show s1 = _ from b2]; exact hh
      have hp1 : valueOf s1 (cs!"PS4") = some ps4 := by rw [show s1 = _ from b2]; exact hps4
      obtain ⟨s', c1, c2, c3, new2, c4, c5, c6⟩ := ih n (by simp at hn; omega) b3 hh1 hp1 (by rw [b4]; exact h2)
      refine ⟨s', ?_, b2.trans c2, ?_, new2 ++ new1, ?_, ?_, ?_⟩
      · unfold doWaitLoop
        rw [run_getS_bind, if_neg (by rw [hw]; simp), run_bind_ok b1]
        exact c1
      · rw [c3, b4]
      · rw [c4, b5, List.append_assoc]
      · exact c5.append b6
      · intro hnum
        have hf : s1.fds = s.fds := by rw [show s1 = _ from b2]
        rw [b4, hf] at c6
        obtain ⟨outs, d1, d2⟩ := c6 (hnum.report h1)
        rw [printed_append, b7, d2]
        by_cases ho : owner (about st) s.jc.table = some id
        · obtain ⟨e1, j, e2⟩ := hnum.own h1 ho
          refine ⟨_, .own h1 ho e2 d1, ?_⟩
          rw [if_pos ho, List.map_append]
          congr 1
          have hg : ∀ jc : JobControl, jc.pids.lookup (about st) = some id → jc.table.lookup id = some j →
              jc.getJobPid (about st) = some j := by
            intro jc h1 h2
            unfold JobControl.getJobPid
            rw [h1]
            exact h2
          unfold statusLine announcement
          rw [hg { s.jc with table := t1, current := cur1 } e1 e2]
          cases bySignal w st <;> simp
        · refine ⟨_, .other h1 ho d1, ?_⟩
          rw [if_neg ho]
          rfl

theorem doWaitLoop_crash (w : World) (id : Nat) {ps4 : Str} {sts : List WStatus} {waits : List WRes}
    (hb : Batch waits sts) (n : Nat) (hn : sts.length < n) {s : Sh} (hw : s.waits = waits) (hh : s.held = [])
    (hps4 : valueOf s (cs!"PS4") = some ps4) (hr : Crashing sts s.jc.table s.jc.current) :
    ∃ s', doWaitLoop w id n false s = (.panic .unwrap, s') := by
  induction hb generalizing n s with
  | none h => cases hr
  | @some rest st sts k hp h ih =>
    obtain ⟨n, rfl⟩ : ∃ m, n = m + 1 := ⟨n - 1, by simp at hn; omega⟩
    unfold doWaitLoop
    rw [run_getS_bind, if_neg (by rw [hw]; simp)]
    cases hr with
    | here h1 =>
      obtain ⟨s', e⟩ := waitOne_crash w id hw hp hh h1
      exact ⟨s', by rw [run_bind, e]⟩
    | later h1 h2 =>
      obtain ⟨s1, b1, b2, b3, b4, -⟩ := waitOne_report w id hw hp hh hps4 h1
      have hh1 : s1.held = [] := by rw [show s1 = _ from b2]; exact hh
      have hp1 : valueOf s1 (cs!"PS4") = some ps4 := by rw [show s1 = _ from b2]; exact hps4
      rw [run_bind_ok b1]
      exact ih n (by simp at hn; omega) b3 hh1 hp1 (by rw [b4]; exact h2)

theorem batch_length {waits : List WRes} {sts : List WStatus} (h : Batch waits sts) : sts.length ≤ waits.length := by
  induction h with
  | none => exact Nat.zero_le _
  | some k _ _ ih => simp only [List.length_cons, List.length_append]; omega

/-- The wait for a running job: everything that is there is collected. -/
theorem doWait_batch (w : World) (id : Nat) {s : Sh} {j : Job} (hj : s.jc.getJob id = some j) (hrun : j.state = .running)
    (hh : s.held = []) {ps4 : Str} (hps4 : valueOf s (cs!"PS4") = some ps4) {sts : List WStatus}
    (hb : Batch s.waits sts) (hne : s.waits ≠ []) {t' : List (Nat × Job)} {cur' : Option Nat}
    (hr : Reports sts s.jc.table s.jc.current t' cur') :
    ∃ s', doWait w id s = (.ok (), s') ∧ Waited s s' ∧ s'.jc = { s.jc with table := t', current := cur' } ∧
      ∃ new, s'.trace = new ++ s.trace ∧ Collected new sts ∧
        (Numbered s.jc.pids id s.jc.table → ∃ outs, Told w ps4 id sts s.jc.table s.jc.current outs ∧
          printed new = outs.map fun t => ((s.fds.get 1).map FdE.chan, t)) := by
  have hl := batch_length hb
  obtain ⟨s', h1, h2⟩ := doWaitLoop_batch w id hb (s.waits.length + 2) (by omega) rfl hh hps4 hr
  refine ⟨s', ?_, h2⟩
  unfold doWait
  rw [run_getS_bind, hj, unwrapM_some, run_pure_bind]
  simp only [hrun, decide_true, Bool.not_true, Bool.false_and]
  rw [if_neg (by simp), doWaitLoop_block w id _ hne]
  exact h1

theorem doWait_crash (w : World) (id : Nat) {s : Sh} {j : Job} (hj : s.jc.getJob id = some j) (hrun : j.state = .running)
    (hh : s.held = []) {ps4 : Str} (hps4 : valueOf s (cs!"PS4") = some ps4) {sts : List WStatus}
    (hb : Batch s.waits sts) (hr : Crashing sts s.jc.table s.jc.current) :
    ∃ s', doWait w id s = (.panic .unwrap, s') := by
  have hl := batch_length hb
  have hne : s.waits ≠ [] := by
    intro e
    rw [e] at hl
    cases hr <;> simp at hl
  obtain ⟨s', h1⟩ := doWaitLoop_crash w id hb (s.waits.length + 2) (by omega) rfl hh hps4 hr
  refine ⟨s', ?_⟩
  unfold doWait
  rw [run_getS_bind, hj, unwrapM_some, run_pure_bind]
  simp only [hrun, decide_true, Bool.not_true, Bool.false_and]
  rw [if_neg (by simp), doWaitLoop_block w id _ hne]
  exact h1

/-- The whole wait for a job. -/
theorem waitForJob_batch (w : World) (id : Nat) {s : Sh} {j : Job} (hj : s.jc.getJob id = some j)
    (hrun : j.state = .running) (hh : s.held = []) {ps4 : Str} (hps4 : valueOf s (cs!"PS4") = some ps4)
    {sts : List WStatus} (hb : Batch s.waits sts) (hne : s.waits ≠ []) {t' : List (Nat × Job)} {cur' : Option Nat}
    (hr : Reports sts s.jc.table s.jc.current t' cur') {j' : Job} (hj' : t'.lookup id = some j') :
    ∃ s', waitForJob w id s = (.ok j'.stopStatus, s') ∧ Waited s s' ∧
      (s'.jc = if j'.state = .finished ∨ j'.stopStatus.isExited = true then
          ({ s.jc with table := t', current := cur' } : JobControl).deleteJob id
        else { s.jc with table := t', current := cur' }) ∧
      ∃ new, s'.trace = new ++ s.trace ∧ Collected new sts ∧
        (Numbered s.jc.pids id s.jc.table → ∃ outs, Told w ps4 id sts s.jc.table s.jc.current outs ∧
          printed new = outs.map fun t => ((s.fds.get 1).map FdE.chan, t)) := by
  obtain ⟨s1, h1, h2, h3, h4⟩ := doWait_batch w id hj hrun hh hps4 hb hne hr
  have hg : s1.jc.getJob id = some j' := by rw [h3]; exact hj'
  have hstart : waitForJob w id s = (do
      if j'.state = .finished || j'.stopStatus.isExited then
        deleteJobM id
      pure j'.stopStatus : M WStatus) s1 := by
    unfold waitForJob
    rw [run_bind_ok h1, run_getS_bind, hg, unwrapM_some, run_pure_bind]
  by_cases hc : j'.state = .finished ∨ j'.stopStatus.isExited = true
  · rw [if_pos (by simpa using hc)] at hstart
    refine ⟨{ s1 with masked := false, jc := s1.jc.deleteJob id }, ?_, h2.trans rfl, ?_, h4⟩
    · rw [hstart]; rfl
    · rw [if_pos hc, ← h3]
  · rw [if_neg (by simpa using hc)] at hstart
    exact ⟨s1, by rw [hstart]; rfl, h2, by rw [if_neg hc]; exact h3, h4⟩

theorem waitForJob_crash (w : World) (id : Nat) {s : Sh} {j : Job} (hj : s.jc.getJob id = some j)
    (hrun : j.state = .running) (hh : s.held = []) {ps4 : Str} (hps4 : valueOf s (cs!"PS4") = some ps4)
    {sts : List WStatus} (hb : Batch s.waits sts) (hr : Crashing sts s.jc.table s.jc.current) :
    ∃ s', waitForJob w id s = (.panic .unwrap, s') := by
  obtain ⟨s', h⟩ := doWait_crash w id hj hrun hh hps4 hb hr
  exact ⟨s', by unfold waitForJob; rw [run_bind, h]⟩

/-! ## The jobs in the table stay the same ones -/

/-- The status noted for the job is that of its first process. -/
def NotedOk (j : Job) : Prop := j.stopStatus = (j.processes.head?.bind Process.status).getD .stillAlive

theorem NotedOk.passed {q : Nat × Job} (h : NotedOk q.2) : NotedOk (passed q).2 := by
  unfold Spec.passed
  split
  · exact h
  · unfold NotedOk at *
    simp only
    cases hb : q.2.processes.head?.bind Process.status with
    | none =>
      rw [hb] at h
      exact h
    | some x => rfl

theorem NotedOk.reported {j : Job} (h : NotedOk j) (pid : Int) (st : WStatus) : NotedOk (reportedTo pid st j) := by
  unfold NotedOk at *
  show ((markProcs pid st j.processes).head?.bind Process.status).getD j.stopStatus =
    ((markProcs pid st j.processes).head?.bind Process.status).getD .stillAlive
  cases hm : (markProcs pid st j.processes).head?.bind Process.status with
  | some x => rfl
  | none =>
    simp only [Option.getD_none]
    rw [h]
    unfold markProcs at hm
    rw [List.head?_map] at hm
    cases hh : j.processes.head? with
    | none => rfl
    | some p =>
      rw [hh] at hm
      simp only [Option.map_some, Option.bind_some] at hm ⊢
      by_cases hp : p.pid = pid
      · simp [hp] at hm
      · rw [if_neg hp] at hm
        rw [hm]; rfl

/-- The status noted for a job, in terms of its first process. -/
theorem NotedOk.has {j : Job} (h : NotedOk j) {st : WStatus} (hst : st ≠ .stillAlive) :
    j.stopStatus = st ↔ FirstHas j st := by
  unfold NotedOk at h
  unfold FirstHas
  rw [h]
  cases hh : j.processes.head? with
  | none => simp [Ne.symm hst]
  | some p =>
    simp only [Option.bind_some, Option.some.injEq, exists_eq_left']
    cases p.status with
    | none => simp [Ne.symm hst]
    | some x => simp

theorem NotedOk.firstStopped {j : Job} (h : NotedOk j) :
    FirstStopped j ↔ ∃ st, FirstHas j st ∧ st.isStopped = true := by
  constructor
  · rintro (hs | ⟨p, st, h1, h2, h3⟩)
    · exact ⟨j.stopStatus, (h.has (by intro e; rw [e] at hs; cases hs)).1 rfl, hs⟩
    · exact ⟨st, ⟨p, h1, h2⟩, h3⟩
  · rintro ⟨st, ⟨p, h1, h2⟩, h3⟩
    exact .inr ⟨p, st, h1, h2, h3⟩

theorem deleteJob_current (jc : JobControl) (id : Nat) : (jc.deleteJob id).current = jc.current := by
  unfold JobControl.deleteJob
  cases tGet id jc.table with
  | none => rfl
  | some job =>
    simp only
    by_cases h : job.processes.length = 0
    · rw [if_pos h]
    · rw [if_neg h]
      cases (JobControl.noteStopped job).stopStatus.isStopped with
      | true => rfl
      | false =>
        show (JobControl.updateNextId _).current = _
        unfold JobControl.updateNextId
        split <;> rfl

/-! ## Reports while all other jobs are known -/

theorem reportedTo_known {j : Job} (h : FirstKnown j) (pid : Int) (st : WStatus) : FirstKnown (reportedTo pid st j) := by
  obtain ⟨p, x, hp, hx⟩ := h
  have : (reportedTo pid st j).processes.head? =
      some (if p.pid = pid then { p with status := some st } else p) := by
    show (j.processes.map _).head? = _
    rw [List.head?_map, hp]; rfl
  refine ⟨_, if p.pid = pid then st else x, this, ?_⟩
  split <;> simp [*]

theorem passed_known {q : Nat × Job} (h : FirstKnown q.2) : FirstKnown (passed q).2 := by
  unfold Spec.passed
  split
  · exact h
  · exact h

/-- No report crashes the shell while the first process of every unfinished job is known. -/
theorem report_exists {t : List (Nat × Job)} (h : ∀ q ∈ t, q.2.state ≠ .finished → FirstKnown q.2) (pid : Int)
    (st : WStatus) (cur : Option Nat) : ∃ t' cur', Report pid st t cur t' cur' := by
  induction t with
  | nil => exact ⟨_, _, .stranger fun _ hq => nomatch hq⟩
  | cons q t ih =>
    obtain ⟨id, j⟩ := q
    obtain ⟨t', cur', ih⟩ := ih fun q hq => h q (List.mem_cons_of_mem _ hq)
    have hq : j.state ≠ .finished → FirstKnown j := h (id, j) List.mem_cons_self
    by_cases hm : j.state ≠ .finished ∧ ∃ p ∈ j.processes, p.pid = pid
    · refine ⟨_, _, .member (pre := []) (fun _ hq => nomatch hq) hm.1 hm.2 (reportedTo_known (hq hm.1) pid st)⟩
    · have hpass : PassedBy pid (id, j) := fun hf => ⟨hq hf, fun p hp e => hm ⟨hf, p, hp, e⟩⟩
      cases ih with
      | stranger h =>
        refine ⟨_, _, .stranger fun q hq => ?_⟩
        rcases List.mem_cons.1 hq with rfl | hq
        · exact hpass
        · exact h q hq
      | @member pre post _ id' j' hpre ho hm hk =>
        exact ⟨_, _, .member (pre := (id, j) :: pre)
          (by
            intro q hq
            rcases List.mem_cons.1 hq with rfl | hq
            · exact hpass
            · exact hpre q hq) ho hm hk⟩

theorem Report.known {pid : Int} {st : WStatus} {t t' : List (Nat × Job)} {cur cur' : Option Nat}
    (hr : Report pid st t cur t' cur') (h : ∀ q ∈ t, q.2.state ≠ .finished → FirstKnown q.2) :
    ∀ q ∈ t', q.2.state ≠ .finished → FirstKnown q.2 := by
  have hpass : ∀ q : Nat × Job, (q.2.state ≠ .finished → FirstKnown q.2) →
      (passed q).2.state ≠ .finished → FirstKnown (passed q).2 := by
    intro q hq hf
    by_cases hs : q.2.state = .finished
    · unfold Spec.passed at hf
      rw [if_pos hs] at hf
      exact absurd hs hf
    · exact passed_known (hq hs)
  cases hr with
  | stranger _ =>
    intro q hq
    obtain ⟨q0, hq0, rfl⟩ := List.mem_map.1 hq
    exact hpass q0 (h q0 hq0)
  | member _ _ _ hk =>
    intro q hq
    rcases List.mem_append.1 hq with hq | hq
    · obtain ⟨q0, hq0, rfl⟩ := List.mem_map.1 hq
      exact hpass q0 (h q0 (List.mem_append_left _ hq0))
    · rcases List.mem_cons.1 hq with rfl | hq
      · exact fun _ => hk
      · exact h q (List.mem_append_right _ (List.mem_cons_of_mem _ hq))

/-- The same for a sequence of reports. -/
theorem reports_exist (sts : List WStatus) {t : List (Nat × Job)}
    (h : ∀ q ∈ t, q.2.state ≠ .finished → FirstKnown q.2) (cur : Option Nat) :
    ∃ t' cur', Reports sts t cur t' cur' := by
  induction sts generalizing t cur with
  | nil => exact ⟨_, _, .nil _ _⟩
  | cons st sts ih =>
    obtain ⟨t1, cur1, h1⟩ := report_exists h (about st) st cur
    obtain ⟨t2, cur2, h2⟩ := ih (Report.known h1 h) cur1
    exact ⟨t2, cur2, .cons h1 h2⟩

/-- Every sequence of reports is recorded or crashes the shell. -/
theorem reports_or_crashing (sts : List WStatus) (t : List (Nat × Job)) (cur : Option Nat) :
    (∃ t' cur', Reports sts t cur t' cur') ∨ Crashing sts t cur := by
  induction sts generalizing t cur with
  | nil => exact .inl ⟨_, _, .nil _ _⟩
  | cons st sts ih =>
    by_cases h : ∃ t1 cur1, Report (about st) st t cur t1 cur1
    · obtain ⟨t1, cur1, h⟩ := h
      rcases ih t1 cur1 with ⟨t2, cur2, h2⟩ | h2
      · exact .inl ⟨t2, cur2, .cons h h2⟩
      · exact .inr (.later h h2)
    · exact .inr (.here fun t1 cur1 hr => h ⟨t1, cur1, hr⟩)

/-! ## The first process is reported -/

theorem passed_all {q : Nat × Job} (hq : q.2.state ≠ .finished → FirstKnown q.2) :
    (passed q).2.state ≠ .finished → FirstKnown (passed q).2 := by
  intro hf
  by_cases hs : q.2.state = .finished
  · unfold Spec.passed at hf
    rw [if_pos hs] at hf
    exact absurd hs hf
  · exact passed_known (hq hs)

/-- What the first process of a new job is known to have done. -/
theorem new_first {id : Nat} {pid : Int} {pids : List Int} {j : Job} (hj : NewJob id (pid :: pids) j) (st : WStatus) :
    FirstHas (reportedTo pid st j) st ∧ ∃ p, (reportedTo pid st j).processes.head? = some p ∧ p.pid = pid := by
  obtain ⟨p, ps, hps⟩ : ∃ p ps, j.processes = p :: ps := by
    cases h : j.processes with
    | nil => have := hj.pids; rw [h] at this; simp at this
    | cons p ps => exact ⟨p, ps, rfl⟩
  have hp : p.pid = pid := by have := hj.pids; rw [hps] at this; simp at this; exact this.1
  have hh : (reportedTo pid st j).processes.head? = some { p with status := some st } := by
    show (j.processes.map _).head? = _
    rw [hps, List.map_cons, List.head?_cons, if_pos hp]
  exact ⟨⟨_, hh, rfl⟩, _, hh, hp⟩

/-- The report about the first process of the newest job. -/
theorem new_report {id : Nat} {pid : Int} {pids : List Int} {j : Job} (hj : NewJob id (pid :: pids) j) (st : WStatus)
    {t : List (Nat × Job)} (ht : ∀ q ∈ t, PassedBy pid q) (cur : Option Nat) :
    Report pid st (t ++ [(id, j)]) cur (t.map passed ++ [(id, reportedTo pid st j)])
      (if Halted (reportedTo pid st j) then some j.jobId else cur) := by
  obtain ⟨⟨p, hp, hs⟩, -⟩ := new_first hj st
  refine .member ht (by rw [hj.running]; simp) ?_ ⟨p, st, hp, hs⟩
  have h : pid ∈ j.processes.map Process.pid := by rw [hj.pids]; exact List.mem_cons_self
  obtain ⟨p, hp, e⟩ := List.mem_map.1 h
  exact ⟨p, hp, e⟩

/-- The status of the first process stays while the reports are about others. -/
theorem reports_first {sts : List WStatus} {t t' : List (Nat × Job)} {cur cur' : Option Nat} (id : Nat) (pid : Int)
    (st : WStatus) (hr : Reports sts t cur t' cur') (hs : ∀ st' ∈ sts, about st' ≠ pid)
    (h : ∀ q ∈ t, q.1 = id → ∃ p, q.2.processes.head? = some p ∧ p.status = some st ∧ p.pid = pid) :
    ∀ q ∈ t', q.1 = id → FirstHas q.2 st := by
  have := Reports.all hr (P := fun k j => k = id → ∃ p, j.processes.head? = some p ∧ p.status = some st ∧ p.pid = pid)
    (by
      intro q h hk
      have hk' : q.1 = id := by rw [← hk]; unfold Spec.passed; split <;> rfl
      obtain ⟨p, a1, a2⟩ := h hk'
      refine ⟨p, ?_, a2⟩
      rw [← a1]
      unfold Spec.passed
      split <;> rfl)
    (by
      intro st' hst' k j h hk
      obtain ⟨p, a1, a2, a3⟩ := h hk
      refine ⟨p, ?_, a2, a3⟩
      show (j.processes.map _).head? = _
      rw [List.head?_map, a1, Option.map_some, if_neg]
      rw [a3]
      exact Ne.symm (hs st' hst'))
    h
  intro q hq hk
  obtain ⟨p, a1, a2, -⟩ := this q hq hk
  exact ⟨p, a1, a2⟩

/-- A job apart from the status noted for it. -/
def essence (j : Job) : List Process × JobState × Bool × Nat := (j.processes, j.state, j.background, j.jobId)

theorem essence_passed (q : Nat × Job) : essence (passed q).2 = essence q.2 := by
  unfold Spec.passed
  split <;> rfl

theorem passed_fst (q : Nat × Job) : (passed q).1 = q.1 := by
  unfold Spec.passed
  split <;> rfl

theorem lookup_passed (k : Nat) (t : List (Nat × Job)) :
    ((t.map passed).lookup k).map essence = (t.lookup k).map essence := by
  induction t with
  | nil => rfl
  | cons q t ih =>
    obtain ⟨i, j⟩ := q
    have h1 := passed_fst (i, j)
    have h2 := essence_passed (i, j)
    rw [List.map_cons]
    generalize hq : passed (i, j) = q' at h1 h2
    obtain ⟨i', j'⟩ := q'
    obtain rfl : i' = i := h1
    rw [List.lookup_cons, List.lookup_cons]
    cases k == i' with
    | true => simp only [Option.map_some]; rw [h2]
    | false => exact ih

/-- Reports that are about no other job leave the other jobs as they are, and the current job. -/
theorem reports_own {sts : List WStatus} {t t' : List (Nat × Job)} {cur cur' : Option Nat} {id : Nat}
    (hr : Reports sts t cur t' cur') (hnum : ∀ q ∈ t, q.2.jobId = q.1)
    (h : ∀ st ∈ sts, ∀ q ∈ t, q.1 ≠ id → q.2.state ≠ .finished → ∀ p ∈ q.2.processes, p.pid ≠ about st)
    (hc : cur = some id) :
    cur' = some id ∧ ∀ k, k ≠ id → (t'.lookup k).map essence = (t.lookup k).map essence := by
  induction hr with
  | nil => exact ⟨hc, fun _ _ => rfl⟩
  | @cons st sts t t1 t2 cur cur1 cur2 h1 _ ih =>
    have hone : cur1 = some id ∧ (∀ k, k ≠ id → (t1.lookup k).map essence = (t.lookup k).map essence) ∧
        ∀ q ∈ t1, q.2.jobId = q.1 ∧ (q.1 ≠ id → ∃ q0 ∈ t, q0.1 = q.1 ∧ essence q0.2 = essence q.2) := by
      cases h1 with
      | stranger hs =>
        refine ⟨hc, fun k _ => lookup_passed k t, fun q hq => ?_⟩
        obtain ⟨q0, hq0, rfl⟩ := List.mem_map.1 hq
        have e := essence_passed q0
        refine ⟨?_, fun _ => ⟨q0, hq0, (passed_fst q0).symm, e.symm⟩⟩
        have : (passed q0).2.jobId = q0.2.jobId := congrArg (fun x => x.2.2.2) e
        rw [this, hnum q0 hq0, passed_fst]
      | @member pre post _ i j hpre ho hm hk =>
        have hi : i = id := by
          refine Classical.byContradiction fun hne => ?_
          obtain ⟨p, hp, e⟩ := hm
          exact h st List.mem_cons_self (i, j) (by simp) hne ho p hp e
        have hj : j.jobId = i := hnum (i, j) (by simp)
        refine ⟨?_, fun k hkne => ?_, fun q hq => ?_⟩
        · split
          · rw [hj, hi]
          · exact hc
        · rw [List.lookup_append, List.lookup_append]
          have e := lookup_passed k pre
          cases h3 : pre.lookup k with
          | some x =>
            rw [h3] at e
            cases h4 : (pre.map passed).lookup k with
            | none => rw [h4] at e; simp at e
            | some y => rw [h4] at e; simpa using e
          | none =>
            rw [h3] at e
            have h4 : (pre.map passed).lookup k = none := by simpa using e
            rw [h4, Option.none_or, Option.none_or, List.lookup_cons, List.lookup_cons,
              beq_eq_false_iff_ne.2 (by rw [hi]; exact hkne)]
        · rcases List.mem_append.1 hq with hq | hq
          · obtain ⟨q0, hq0, rfl⟩ := List.mem_map.1 hq
            have e := essence_passed q0
            have hq0' : q0 ∈ pre ++ (i, j) :: post := List.mem_append_left _ hq0
            refine ⟨?_, fun _ => ⟨q0, hq0', (passed_fst q0).symm, e.symm⟩⟩
            have : (passed q0).2.jobId = q0.2.jobId := congrArg (fun x => x.2.2.2) e
            rw [this, hnum q0 hq0', passed_fst]
          · rcases List.mem_cons.1 hq with rfl | hq
            · exact ⟨hj, fun hne => absurd hi hne⟩
            · have hq' : q ∈ pre ++ (i, j) :: post := List.mem_append_right _ (List.mem_cons_of_mem _ hq)
              exact ⟨hnum q hq', fun _ => ⟨q, hq', rfl, rfl⟩⟩
    obtain ⟨a1, a2, a3⟩ := hone
    obtain ⟨b1, b2⟩ := ih (fun q hq => (a3 q hq).1) (by
      intro st' hst' q hq hne ho p hp
      obtain ⟨q0, hq0, e1, e2⟩ := (a3 q hq).2 hne
      have ep : q0.2.processes = q.2.processes := congrArg (fun x => x.1) e2
      have es : q0.2.state = q.2.state := congrArg (fun x => x.2.1) e2
      exact h st' (List.mem_cons_of_mem _ hst') q0 hq0 (by rw [e1]; exact hne) (by rw [es]; exact ho) p (by rw [ep]; exact hp)) a1
    exact ⟨b1, fun k hk => (b2 k hk).trans (a2 k hk)⟩

end Rsh
