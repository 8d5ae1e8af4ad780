import Verif.Proofs.Run
import Verif.Proofs.Quiet

/-!
# Foreground pipelines from start to end
-/

namespace Rsh

open Spec

theorem withPids_mem {ps : List Process} {pids : List Nat} {p : Process} (h : p ∈ withPids ps pids) :
    ∃ p0 ∈ ps, ∃ pid ∈ pids, p = { p0 with pid := (pid : Int) } := by
  induction ps generalizing pids with
  | nil => simp [withPids] at h
  | cons a ps ih =>
    cases pids with
    | nil => simp [withPids] at h
    | cons b pids =>
      rw [withPids, List.zipWith_cons_cons] at h
      rcases List.mem_cons.1 h with rfl | h
      · exact ⟨a, List.mem_cons_self, b, List.mem_cons_self, rfl⟩
      · obtain ⟨p0, h1, pid, h2, e⟩ := ih h
        exact ⟨p0, List.mem_cons_of_mem _ h1, pid, List.mem_cons_of_mem _ h2, e⟩

theorem withPids_pids {ps : List Process} {pids : List Nat} (h : pids.length = ps.length) :
    (withPids ps pids).map Process.pid = pids.map (fun (n : Nat) => (n : Int)) := by
  induction ps generalizing pids with
  | nil => cases pids with
    | nil => rfl
    | cons => simp at h
  | cons a ps ih =>
    cases pids with
    | nil => simp at h
    | cons b pids =>
      rw [withPids, List.zipWith_cons_cons]
      simp only [List.map_cons]
      exact congrArg _ (ih (by simpa using h))

/-- What the shell changes by running a foreground pipeline. -/
def Ran (s s' : Sh) : Prop :=
  s' = { s with jc := s'.jc, masked := s'.masked, gotSigchld := s'.gotSigchld, waits := s'.waits,
                trace := s'.trace, nextPipe := s'.nextPipe, exitStatus := s'.exitStatus }

/-- A pipeline of external commands is run in the foreground while there is no other job; its first
process exits first, the others after it. -/
theorem foreground_run {w : World} (hw : Resources w) (rec : List AndOr → M Int) (pl : Pipeline)
    (hfg : pl.background = false) (hplain : ∀ c ∈ pl.seq, Plain c) (hne : pl.seq ≠ [])
    {s s1 : Sh} {procs : List (Process × SimpleCommand)}
    (hexp : evalCommands w rec pl.seq { s with masked := true } = (.ok procs, s1))
    (hfun : ∀ q ∈ procs, s.ctx.isFunction q.2.name = false) (hfds : StdFds s.fds)
    (ht : s.jc.table = []) (hh : s.held = []) :
    ∃ kid kids, Kids w rec false s1 procs (kid :: kids) ∧
      Silent (launched s1 false procs (kid :: kids)) (evalPipeline w rec pl s).2 ∧
      ∀ (k : Nat) (code : Int) (sts : List (Int × Int)) (rest : List WRes),
        s.waits = List.replicate k .eintr ++ .st (.exited kid.1 code) ::
          (sts.map (fun p => .st (.exited p.1 p.2)) ++ rest) →
        .eintr ∉ rest → (kid.1 : Int) ∉ sts.map Prod.fst →
        (∀ q ∈ kids, q.1 ≠ kid.1 → (q.1 : Int) ∈ sts.map Prod.fst) →
        ∃ s', evalPipeline w rec pl s = (.ok code, s') ∧ s'.exitStatus = code ∧ s'.masked = false ∧
          s'.jc.table = [] ∧ Ran s s' ∧
          (∃ ws : List WRes, s'.trace = ws.map .waited ++ .waited (.st (.exited kid.1 code)) ::
            (List.replicate k (.waited .eintr) ++ (((kid :: kids).map Kid.event).reverse ++ s1.trace))) ∧
          (∀ q ∈ kid :: kids, ∃ c, .waited (.st (.exited q.1 c)) ∈ s'.trace) ∧
          ∀ more, rest = .err :: more → s'.waits = more := by
  have hE := evalCommands_plain w rec hplain { s with masked := true }
  rw [hexp] at hE
  obtain ⟨np, tr, hs1⟩ := (show Expands { s with masked := true } s1 from hE)
  obtain ⟨hlen, hproc⟩ := evalCommands_procs w rec hplain hexp
  have hpne : procs ≠ [] := by
    intro e; rw [e] at hlen; exact hne (List.length_eq_zero_iff.1 hlen.symm)
  have hc1 : s1.ctx = s.ctx := by rw [hs1]
  have hf1 : s1.fds = s.fds := by rw [hs1]
  have ht1 : s1.jc.table = [] := by rw [hs1]; exact ht
  obtain ⟨kids, hkids, hrun⟩ := pipeline_launch hw rec pl hexp hpne (by rw [hc1]; exact hfun)
    (by rw [hf1]; exact hfds)
  rw [hfg] at hkids hrun
  have hl := hkids.length
  rcases kids with _ | ⟨kid, kids⟩
  · exact absurd (List.length_eq_zero_iff.1 hl.symm) hpne
  rcases procs with _ | ⟨q0, qs⟩
  · exact absurd rfl hpne
  refine ⟨kid, kids, hkids, ?_, fun k code sts rest hwaits he hp0 hrest => ?_⟩
  · rw [hrun]
    have S := Silent.seq
    apply silent_post
    refine Keeps.bind S (silent_afterFork w false _ _) (fun _ => ?_) _
    refine .bind (m := interruptsOn) S (silent_modS fun _ => rfl) fun _ => ?_
    exact .bind S (.getS S) fun _ => .pure S _
  have hpids : ((kid :: kids).map Prod.fst).length = ((q0 :: qs).map Prod.fst).length := by
    rw [List.length_map, List.length_map, hl]
  have htab := started_table (jc := s1.jc) (by rw [ht1]; simp) ((q0 :: qs).map Prod.fst) false
    ((kid :: kids).map Prod.fst) hpids
  rw [ht1, List.nil_append] at htab
  have hwl : (launched s1 false (q0 :: qs) (kid :: kids)).waits = s.waits := by
    show s1.waits = _; rw [hs1]
  have hhl : (launched s1 false (q0 :: qs) (kid :: kids)).held = [] := by
    show s1.held = _; rw [hs1]; exact hh
  obtain ⟨s', j', hwait, hs', hm, hjc, hprog, -, -, -, htrace, hall, hmore⟩ := waitForJob_all w s1.jc.nextId
    (s := launched s1 false (q0 :: qs) (kid :: kids)) htab hhl rfl
    (p0 := { q0.1 with pid := (kid.1 : Int) })
    (ps := withPids (qs.map Prod.fst) (kids.map Prod.fst)) rfl
    (fun p hp => by
      obtain ⟨p1, hp1, pid, -, rfl⟩ := withPids_mem hp
      obtain ⟨q, hq, rfl⟩ := List.mem_map.1 hp1
      exact (hproc q hq).2) (hwl.trans hwaits) he hp0 (fun p hp hne => by
      obtain ⟨p1, -, pid, hpid, rfl⟩ := withPids_mem hp
      obtain ⟨q, hq, rfl⟩ := List.mem_map.1 hpid
      refine hrest q hq fun e => hne ?_
      show (q.1 : Int) = kid.1
      rw [e])
  have hq : ∃ ws : List WRes, s'.trace = ws.map .waited ++ .waited (.st (.exited kid.1 code)) ::
      (List.replicate k (.waited .eintr) ++ (((kid :: kids).map Kid.event).reverse ++ s1.trace)) := htrace
  rw [deleteJob_only hprog] at hjc
  have ht' : s'.jc.table = [] := by rw [hjc]
  have hdel : s'.jc.deleteJob s1.jc.nextId = s'.jc := by
    unfold JobControl.deleteJob tGet
    rw [ht']; rfl
  have hafter : afterFork w false s1.jc.nextId (q0 :: qs).length (launched s1 false (q0 :: qs) (kid :: kids)) =
      (.ok (), { s' with exitStatus := code, masked := false }) := by
    unfold afterFork
    rw [if_neg (by simp), if_neg (by simp), run_bind_ok hwait]
    unfold deleteJobM interruptsOff interruptsOn modJc
    show (Out.ok (), { s' with exitStatus := code, masked := false, jc := s'.jc.deleteJob s1.jc.nextId }) = _
    rw [hdel]
  refine ⟨{ s' with exitStatus := code, masked := false }, ?_, rfl, rfl, ht', ?_, hq, ?_, hmore⟩
  · rw [hrun, run_bind_ok hafter]
    rfl
  · unfold Ran
    unfold Waited at hs'
    rw [hs', hs1]
    rfl
  · intro q hq
    have hp := withPids_pids hpids
    have : (q.1 : Int) ∈ (withPids ((q0 :: qs).map Prod.fst) ((kid :: kids).map Prod.fst)).map Process.pid := by
      rw [hp]
      exact List.mem_map_of_mem (List.mem_map_of_mem hq)
    obtain ⟨p, hp, e⟩ := List.mem_map.1 this
    rw [← e]
    exact hall p hp

end Rsh
