import Verif.Proofs.Wiring
import Verif.Props.Lookup
import Verif.Spec.Fns
import Verif.Proofs.Waits

/-!
# A foreground pipeline once its functions have been called
-/

namespace Rsh

open Spec

theorem printed_pipeline (ws : List WRes) (r : WRes) (kids : List Kid) (tr : List Event) :
    printed (ws.map .waited ++ .waited r :: (List.replicate 0 (.waited .eintr) ++ ((kids.map Kid.event).reverse ++ tr))) =
      printed tr := by
  have h : printed (kids.map Kid.event).reverse = [] := by
    unfold printed
    rw [List.reverse_reverse, List.filterMap_map, List.filterMap_eq_nil_iff]
    intro k _
    rfl
  have h2 : printed (ws.map Event.waited ++ [.waited r]) = [] := by
    refine printed_none fun e he => ?_
    rcases List.mem_append.1 he with he | he
    · obtain ⟨r, -, rfl⟩ := List.mem_map.1 he
      exact ⟨r, rfl⟩
    · exact ⟨r, List.mem_singleton.1 he⟩
  rw [show (ws.map Event.waited ++ .waited r :: (List.replicate 0 (.waited .eintr) ++ ((kids.map Kid.event).reverse ++ tr)))
      = (ws.map .waited ++ [.waited r]) ++ ((kids.map Kid.event).reverse ++ tr) by simp,
    printed_append, printed_append, h, h2, List.append_nil, List.append_nil]

/-- What is left to do: the remaining commands are the processes of a job. -/
def restM (w : World) (rec : List AndOr → M Int) (procs : List (Process × SimpleCommand)) : M Int := do
  let jobId ← createJobM (procs.map Prod.fst) false
  forkLoop w rec false jobId procs.length procs 0 (-1, -1) (-1)
  afterFork w false jobId procs.length
  interruptsOn
  let s ← getS
  pure s.exitStatus

theorem evalPipeline_rest {w : World} {rec : List AndOr → M Int} {bang : Bool} {cs : List Command} {s s1 : Sh}
    {procs : List (Process × SimpleCommand)} (hne : procs ≠ [])
    (h : evalCommands w rec cs { s with masked := true } = (.ok procs, s1)) :
    evalPipeline w rec (.mk bang cs false) s = (runFunctions rec procs >>= restM w rec) s1 := by
  unfold evalPipeline interruptsOff
  rw [run_modS_bind, run_bind_ok (show evalCommands w rec (Pipeline.seq (.mk bang cs false)) _ = _ from h)]
  rw [if_neg (by simpa using hne)]
  rfl

theorem rest_launch {w : World} (hw : Resources w) (rec : List AndOr → M Int)
    {s1 : Sh} {procs : List (Process × SimpleCommand)}
    (hne : procs ≠ []) (hfun : ∀ q ∈ procs, s1.ctx.isFunction q.2.name = false) (hfds : StdFds s1.fds) :
    ∃ kids, Kids w rec false s1 procs kids ∧
      restM w rec procs s1 = (do
        afterFork w false s1.jc.nextId procs.length
        interruptsOn
        let s ← getS
        pure s.exitStatus : M Int) (launched s1 false procs kids) := by
  obtain ⟨kids, hrun, hlen, hpids, hkids⟩ := forkLoop_run w rec false s1.jc.nextId procs.length
    hw.pipe hw.fork { s1 with jc := (s1.jc.createJob (procs.map Prod.fst) false).2 } hfds procs 0 none
    (-1, -1) { s1 with jc := (s1.jc.createJob (procs.map Prod.fst) false).2 } hne
    ⟨_, _, [], rfl⟩ rfl ⟨fun _ _ e => (by cases e), fun _ _ _ e => (by cases e)⟩ rfl rfl (Nat.zero_add _).symm hfun
  refine ⟨kids, ⟨hlen, hpids, ?_⟩, ?_⟩
  · intro i q kid hq hk
    have := hkids i q kid hq hk
    rw [Nat.zero_add] at this
    exact this
  · have hc : createJobM (procs.map Prod.fst) false s1 =
      (.ok s1.jc.nextId, { s1 with jc := (s1.jc.createJob (procs.map Prod.fst) false).2 }) := rfl
    exact (run_bind_ok hc _).trans (run_bind_ok hrun _)

theorem rest_foreground {w : World} (hw : Resources w) (rec : List AndOr → M Int)
    {s : Sh} {procs : List (Process × SimpleCommand)} (hpne : procs ≠ []) (hproc : ∀ q ∈ procs, q.1.status = none)
    (hfun : ∀ q ∈ procs, s.ctx.isFunction q.2.name = false) (hfds : StdFds s.fds)
    (ht : s.jc.table = []) (hh : s.held = []) :
    ∃ kid kids, Kids w rec false s procs (kid :: kids) ∧
      ∀ (k : Nat) (code : Int) (sts : List (Int × Int)) (rest : List WRes),
        s.waits = List.replicate k .eintr ++ .st (.exited kid.1 code) ::
          (sts.map (fun p => .st (.exited p.1 p.2)) ++ rest) →
        .eintr ∉ rest → (kid.1 : Int) ∉ sts.map Prod.fst →
        (∀ q ∈ kids, q.1 ≠ kid.1 → (q.1 : Int) ∈ sts.map Prod.fst) →
        ∃ s', restM w rec procs s = (.ok code, s') ∧ s'.exitStatus = code ∧ s'.masked = false ∧
          s'.jc.table = [] ∧ Ran s s' ∧
          (∃ ws : List WRes, s'.trace = ws.map .waited ++ .waited (.st (.exited kid.1 code)) ::
            (List.replicate k (.waited .eintr) ++ (((kid :: kids).map Kid.event).reverse ++ s.trace))) ∧
          ∀ more, rest = .err :: more → s'.waits = more := by
  obtain ⟨kids, hkids, hrun⟩ := rest_launch hw rec hpne hfun hfds
  have hl := hkids.length
  rcases kids with _ | ⟨kid, kids⟩
  · exact absurd (List.length_eq_zero_iff.1 hl.symm) hpne
  rcases procs with _ | ⟨q0, qs⟩
  · exact absurd rfl hpne
  refine ⟨kid, kids, hkids, fun k code sts rest hwaits he hp0 hrest => ?_⟩
  have hpids : ((kid :: kids).map Prod.fst).length = ((q0 :: qs).map Prod.fst).length := by
    rw [List.length_map, List.length_map, hl]
  have htab := started_table (jc := s.jc) (by rw [ht]; simp) ((q0 :: qs).map Prod.fst) false
    ((kid :: kids).map Prod.fst) hpids
  rw [ht, List.nil_append] at htab
  have hwl : (launched s false (q0 :: qs) (kid :: kids)).waits = s.waits := by
    rfl
  have hhl : (launched s false (q0 :: qs) (kid :: kids)).held = [] := by
    exact hh
  obtain ⟨s', j', hwait, hs', hm, hjc, hprog, -, -, -, htrace, -, hmore⟩ := waitForJob_all w s.jc.nextId
    (s := launched s false (q0 :: qs) (kid :: kids)) htab hhl rfl
    (p0 := { q0.1 with pid := (kid.1 : Int) })
    (ps := withPids (qs.map Prod.fst) (kids.map Prod.fst)) rfl
    (fun p hp => by
      obtain ⟨p1, hp1, pid, -, rfl⟩ := withPids_mem hp
      obtain ⟨q, hq, rfl⟩ := List.mem_map.1 hp1
      exact hproc q hq) (hwl.trans hwaits) he hp0 (fun p hp hne => by
      obtain ⟨p1, -, pid, hpid, rfl⟩ := withPids_mem hp
      obtain ⟨q, hq, rfl⟩ := List.mem_map.1 hpid
      refine hrest q hq fun e => hne ?_
      show (q.1 : Int) = kid.1
      rw [e])
  have hq : ∃ ws : List WRes, s'.trace = ws.map .waited ++ .waited (.st (.exited kid.1 code)) ::
      (List.replicate k (.waited .eintr) ++ (((kid :: kids).map Kid.event).reverse ++ s.trace)) := htrace
  rw [deleteJob_only hprog] at hjc
  have ht' : s'.jc.table = [] := by rw [hjc]
  have hdel : s'.jc.deleteJob s.jc.nextId = s'.jc := by
    unfold JobControl.deleteJob tGet
    rw [ht']; rfl
  have hafter : afterFork w false s.jc.nextId (q0 :: qs).length (launched s false (q0 :: qs) (kid :: kids)) =
      (.ok (), { s' with exitStatus := code, masked := false }) := by
    unfold afterFork
    rw [if_neg (by simp), if_neg (by simp), run_bind_ok hwait]
    unfold deleteJobM interruptsOff interruptsOn modJc
    show (Out.ok (), { s' with exitStatus := code, masked := false, jc := s'.jc.deleteJob s.jc.nextId }) = _
    rw [hdel]
  refine ⟨{ s' with exitStatus := code, masked := false }, ?_, rfl, rfl, ht', ?_, hq, hmore⟩
  · rw [hrun, run_bind_ok hafter]
    rfl
  · unfold Ran
    unfold Waited at hs'
    rw [hs']
    rfl

theorem kids_existing : ∀ (kids : List Kid) (gone : List Bool) (P : Nat → ExecImage → Prop), gone.length = kids.length →
    (∀ (i : Nat) kid, kids[i]? = some kid → ∃ img, P i img ∧
      ((gone[i]? = some false ∧ kid.2.1 = .exec img) ∨ (gone[i]? = some true ∧ kid.2.1 = .exit 1))) →
    ∃ imgs : List ExecImage, imgs.length = kids.length ∧ execs ((kids.map Kid.event).reverse) = existing gone imgs ∧
      ∀ (i : Nat) img, imgs[i]? = some img → P i img
  | [], gone, _, hl, _ => ⟨[], rfl, by cases gone with | nil => rfl | cons => simp at hl, fun i img h => by simp at h⟩
  | kid :: kids, gone, P, hl, h => by
    rcases gone with _ | ⟨g, gone⟩
    · simp at hl
    obtain ⟨img, h1, h2⟩ := h 0 kid rfl
    obtain ⟨imgs, k1, k2, k3⟩ := kids_existing kids gone (fun i => P (i + 1)) (by simpa using hl)
      fun i k hk => h (i + 1) k hk
    refine ⟨img :: imgs, by simp [k1], ?_, fun i im hi => ?_⟩
    · rcases h2 with ⟨e1, e2⟩ | ⟨e1, e2⟩
      · cases e1
        simp [execs_append, k2, execs, Kid.event, e2, existing]
      · cases e1
        simp [execs_append, k2, execs, Kid.event, e2, existing]
    · cases i with
      | zero => cases hi; exact h1
      | succ i => exact k3 i im hi

/-- A program with these attributes. -/
def imageOf (s : Sh) (path : Str) (argv : List Str) (env : AMap Str) (chan : Int → Option Chan) : ExecImage where
  path := path
  argv := argv
  env := env
  fds := [0, 1, 2].filterMap fun fd => (chan fd).map fun c => (fd, { chan := c })
  masked := false
  ownGroup := s.ownGroup
  cwd := s.cwd
  disp := fun g => if s.disp g = .ign ∧ g ∉ [2, 3, 15, 17, 20, 21, 22] then .ign else .dfl

theorem imageOf_launched (s : Sh) (path : Str) (argv : List Str) (env : AMap Str) (chan : Int → Option Chan) :
    Launched s (imageOf s path argv env chan) := ⟨rfl, rfl, fun _ => rfl⟩

theorem imageOf_chan (s : Sh) (path : Str) (argv : List Str) (env : AMap Str) {chan : Int → Option Chan}
    (h : ∀ fd, fd ≠ 0 → fd ≠ 1 → fd ≠ 2 → chan fd = none) (fd : Int) : chanOf (imageOf s path argv env chan) fd = chan fd := by
  unfold chanOf imageOf FdTable.get
  simp only [List.filterMap_cons, List.filterMap_nil]
  by_cases h0 : fd = 0
  · subst h0
    cases chan 0 <;> cases chan 1 <;> cases chan 2 <;> simp [List.lookup]
  by_cases h1 : fd = 1
  · subst h1
    cases chan 0 <;> cases chan 1 <;> cases chan 2 <;> simp [List.lookup]
  by_cases h2 : fd = 2
  · subst h2
    cases chan 0 <;> cases chan 1 <;> cases chan 2 <;> simp [List.lookup]
  rw [h fd h0 h1 h2]
  have e0 : (fd == 0) = false := by simpa using h0
  have e1 : (fd == 1) = false := by simpa using h1
  have e2 : (fd == 2) = false := by simpa using h2
  cases chan 0 <;> cases chan 1 <;> cases chan 2 <;> simp [List.lookup, e0, e1, e2]

theorem stageChan_other (pipe : Nat → Nat) (n i : Nat) (fd : Int) (h0 : fd ≠ 0) (h1 : fd ≠ 1) (h2 : fd ≠ 2) :
    stageChan pipe n i fd = none := by
  unfold stageChan
  rw [if_neg h0, if_neg h1, if_neg h2]

theorem lastOn_other (rs : List Redir) (fd : Int) (h0 : fd ≠ 0) (h1 : fd ≠ 1) : lastOn fd rs = none := by
  unfold lastOn
  rw [List.filter_eq_nil_iff.2]
  · rfl
  · intro r _
    unfold Redir.fd
    cases r.op <;> simp [Ne.symm h0, Ne.symm h1]

theorem lookup_assigned (as : List (Str × Str)) (env : AMap Str) (y : Str) :
    AMap.get (as.reverse ++ env) y = (lastAssigned y as).or (env.get y) := by
  unfold AMap.get lastAssigned
  rw [List.lookup_append]

/-- A program with redirections and assignments that is not found. -/
theorem KidOk.rmissing {w : World} {rec : List AndOr → M Int} {b : Bool} {id : Nat} {inp out : Option Nat}
    {s : Sh} {c : RCmd} {kid : Kid} (h : KidOk w rec b id inp out s c.ext.proc kid) {s0 : Sh} (hok : c.Ok s0)
    (hf : s.ctx.isFunction c.name = false) (hu : Uniq s.fds) (hstd : ∀ i : Nat, i < 3 → s.fds.has i = true)
    (ho : ∀ r ∈ c.applied, ∀ tr, w.openOk (tr ++ s.trace) r.op r.file = true) (ha : Absent w s c.name) :
    kid.2.1 = .exit 1 := by
  obtain ⟨x, hx, -, he, hev⟩ := h
  obtain ⟨jc, np, tr, ex⟩ := hx.rest
  have hctx : x.ctx = s.ctx := by rw [ex]
  have htr : x.trace = tr ++ s.trace := by rw [ex]
  have hux := hx.uniq hu
  have hstdx : ∀ i : Nat, i < 3 → x.fds.has i = true := by
    intro i hi
    have := hstd i hi
    unfold FdTable.has at this ⊢
    rw [hx.fds]
    unfold stageFd
    (repeat' split) <;> first | rfl | exact this
  obtain ⟨y, h1, h2, -⟩ := RCmd.prefixSuffix w hok hstdx hux (fun r hr tr' => by
    rw [htr, ← List.append_assoc]; exact ho r hr _)
  have hyc : y.ctx = s.ctx := by rw [h2]; exact hctx
  obtain ⟨path, p1, p2⟩ := ha
  have hpy : pathOf y = some path := by
    unfold pathOf at p1 ⊢
    rw [hyc]
    exact p1
  have hb := childBody_missing (rec := rec) (p := c.ext.proc.1) h1 (by rw [hyc]; exact hf) hpy
    (p2 y.trace _ (lists_iff.2 rfl))
  rw [hb] at he
  simp only [childEnd, Option.some.injEq] at he
  exact he.symm

/-- Commands without redirections and assignments, as the processes of a job; each exits, the first one first. -/
theorem rest_run {w : World} (hres : Resources w) {pid : Nat → Nat} (hpids : ∀ tr, w.fork tr = some (pid (Spec.forks tr)))
    (hinj : ∀ i j, pid i = pid j → i = j) (rec : List AndOr → M Int) (code : Nat → Int) {es : List Ext} (hne : es ≠ [])
    {s : Sh} (hes : ∀ e ∈ es, s.ctx.isFunction e.name = false ∧ e.pre = none ∧ e.redirs = [])
    (hfds : s.fds = stdTable) (hheld : s.held = []) (ht : s.jc.table = []) {file : Ext → Str} {gone : Ext → Bool}
    (hrun : ∀ e ∈ es, gone e = false → ∀ tr, Runnable w s tr e.name (file e))
    (habs : ∀ e ∈ es, gone e = true → Absent w s e.name) {more : List WRes}
    (hw : s.waits = exits pid code (Spec.forks s.trace) es.length ++ more) (hm : .eintr ∉ more) :
    ∃ s' imgs, restM w rec (es.map Ext.proc) s = (.ok (code (Spec.forks s.trace)), s') ∧
      s'.exitStatus = code (Spec.forks s.trace) ∧ s'.waits = more ∧
      Ran s s' ∧ s'.jc.table = [] ∧ execs s'.trace = execs s.trace ++ existing (es.map gone) imgs ∧
      Spec.forks s'.trace = Spec.forks s.trace + es.length ∧ imgs.length = es.length ∧
      printed s'.trace = printed s.trace ∧
      ∀ (i : Nat) e img, es[i]? = some e → imgs[i]? = some img →
        img.path = file e ∧ img.argv = e.argv ∧ Launched s img ∧ img.ownGroup = s.ownGroup ∧ img.env = s.env ∧
        ∀ fd, chanOf img fd = stageChan (fun j => s.nextPipe + j) es.length i fd := by
  obtain ⟨kid, kids, hkids, hgo⟩ := rest_foreground hres rec (procs := es.map Ext.proc) (s := s) (by simpa using hne)
    (fun q hq => by
      obtain ⟨e, -, rfl⟩ := List.mem_map.1 hq
      rfl)
    (fun q hq => by
      obtain ⟨e, he, rfl⟩ := List.mem_map.1 hq
      exact (hes e he).1) (by rw [hfds]; exact stdTable_std) ht hheld
  have hlen : (kid :: kids).length = es.length := by rw [hkids.length]; simp
  have hpid : ∀ (i : Nat) q, (kid :: kids)[i]? = some q → q.1 = pid (Spec.forks s.trace + i) := by
    intro i q hq
    have h1 := hkids.pid i q hq
    rw [hpids, forks_append, forks_kids, List.length_take] at h1
    have := (List.getElem?_eq_some_iff.1 hq).1
    rw [Nat.min_eq_left (by omega)] at h1
    have h2 := (Option.some.inj h1).symm
    rw [h2]
    congr 1
    show i + Spec.forks s.trace = _
    omega
  have hkid : kid.1 = pid (Spec.forks s.trace) := hpid 0 kid rfl
  obtain ⟨m, hmlen⟩ : ∃ m, es.length = m + 1 := ⟨es.length - 1, by
    have := List.length_pos_iff.2 hne
    omega⟩
  obtain ⟨s', r1, r2, -, r4, r5, ⟨ws, r6⟩, r8⟩ := hgo 0 (code (Spec.forks s.trace))
    ((List.range m).map fun i => ((pid (Spec.forks s.trace + (i + 1)) : Int), code (Spec.forks s.trace + (i + 1))))
    (.err :: more)
    (by
      rw [hw, hmlen, hkid]
      unfold exits
      rw [List.range_succ_eq_map]
      simp [Function.comp_def])
    (by simpa using hm)
    (by
      simp only [List.map_map, List.mem_map, List.mem_range, Function.comp_apply, not_exists, not_and]
      intro i _ e
      rw [hkid] at e
      have := hinj _ _ (Int.ofNat.inj e)
      omega)
    (by
      intro q hq _
      obtain ⟨i, hi, e⟩ := List.mem_iff_getElem.1 hq
      have h1 := hpid (i + 1) q (by rw [List.getElem?_cons_succ, List.getElem?_eq_getElem hi, e])
      simp only [List.map_map, List.mem_map, List.mem_range, Function.comp_apply]
      refine ⟨i, ?_, by rw [h1]⟩
      rw [List.length_cons] at hlen
      omega)
  obtain ⟨imgs, i1, i2, i3⟩ := kids_existing (kid :: kids) (es.map gone) (fun i img => ∀ e, es[i]? = some e →
      img.path = file e ∧ img.argv = e.argv ∧ Launched s img ∧ img.ownGroup = s.ownGroup ∧ img.env = s.env ∧
        ∀ fd, chanOf img fd = stageChan (fun j => s.nextPipe + j) es.length i fd) (by rw [List.length_map, hlen]) (by
    intro i q hq
    have hi : i < es.length := by
      have := (List.getElem?_eq_some_iff.1 hq).1
      omega
    have he : es[i]? = some es[i] := List.getElem?_eq_getElem hi
    have hm : es[i] ∈ es := List.getElem_mem hi
    have hq' : (es.map Ext.proc)[i]? = some es[i].proc := by rw [List.getElem?_map, he]; rfl
    have hkid := hkids.kid i _ q hq' hq
    rw [List.length_map] at hkid
    have hg : (es.map gone)[i]? = some (gone es[i]) := by rw [List.getElem?_map, he]; rfl
    rw [hg]
    cases hgone : gone es[i] with
    | false =>
      obtain ⟨img, h1, h2, h3, h4, h5, h6, h7⟩ := KidOk.image hkid (hes _ hm).1 (hes _ hm).2.1 (hes _ hm).2.2
        (by show Uniq s.fds; rw [hfds]; exact uniq_stdTable)
        (fun tr => ⟨(hrun _ hm hgone _).path, (hrun _ hm hgone _).exec, (hrun _ hm hgone (tr ++ s.trace)).nul⟩)
      refine ⟨img, fun e' he' => ?_, .inl ⟨rfl, by rw [h1]⟩⟩
      rw [he] at he'
      cases he'
      refine ⟨h2, h3, ⟨h5.1, h5.2, h5.3⟩, h6, h4, fun fd => ?_⟩
      unfold chanOf
      rw [h7]
      show (((stageFd s.fds _ _ fd).filter _)).map _ = _
      rw [hfds, stdTable_filter, stageFd_chan]
    | true =>
      obtain ⟨path, hp1, hp2⟩ := habs _ hm hgone
      have hend := KidOk.missing hkid (hes _ hm).1 (hes _ hm).2.1 (hes _ hm).2.2 hp1 (fun tr => hp2 _)
      refine ⟨imageOf s (file es[i]) es[i].argv s.env (stageChan (fun j => s.nextPipe + j) es.length i), fun e' he' => ?_,
        .inr ⟨rfl, by rw [hend]⟩⟩
      rw [he] at he'
      cases he'
      exact ⟨rfl, rfl, imageOf_launched _ _ _ _ _, rfl, rfl, imageOf_chan _ _ _ _ (stageChan_other _ _ _)⟩)
  refine ⟨s', imgs, r1, r2, r8 more rfl, r5, r4, ?_, ?_, by rw [i1, hlen],
    by rw [r6]; exact printed_pipeline _ _ _ _, fun i e img he hi => i3 i img hi e he⟩
  · rw [r6, execs_append, execs_waited]
    show execs (Event.waited _ :: _) ++ [] = _
    simp only [execs, List.append_nil, execs_append, List.replicate_zero, List.nil_append]
    rw [i2]
  · rw [r6, forks_append, forks_waited]
    have := forks_kids (kid :: kids)
    simp only [Spec.forks, List.replicate_zero, List.nil_append, forks_append] at this ⊢
    rw [this, hlen]
    omega

/-- Commands with redirections and assignments, as the processes of a job; each exits, the first one first. -/
theorem rest_rrun {w : World} (hres : Resources w) {pid : Nat → Nat} (hpids : ∀ tr, w.fork tr = some (pid (Spec.forks tr)))
    (hinj : ∀ i j, pid i = pid j → i = j) (rec : List AndOr → M Int) (code : Nat → Int) {es : List RCmd} (hne : es ≠ [])
    {s s0 : Sh} (hes : ∀ e ∈ es, e.Ok s0) (hfn : ∀ e ∈ es, s.ctx.isFunction e.name = false)
    (hfds : s.fds = stdTable) (hheld : s.held = []) (ht : s.jc.table = [])
    (ho : ∀ c ∈ es, ∀ r ∈ c.applied, ∀ tr, w.openOk tr r.op r.file = true) {file : Str → Str} {gone : RCmd → Bool}
    (hrun : ∀ e ∈ es, gone e = false → ∀ tr, Runnable w s tr e.name (file e.name))
    (habs : ∀ e ∈ es, gone e = true → Absent w s e.name) {more : List WRes}
    (hw : s.waits = exits pid code (Spec.forks s.trace) es.length ++ more) (hm : .eintr ∉ more) :
    ∃ s' imgs, restM w rec (es.map fun e => e.ext.proc) s = (.ok (code (Spec.forks s.trace)), s') ∧
      s'.exitStatus = code (Spec.forks s.trace) ∧ s'.waits = more ∧
      Ran s s' ∧ s'.jc.table = [] ∧ execs s'.trace = execs s.trace ++ existing (es.map gone) imgs ∧
      Spec.forks s'.trace = Spec.forks s.trace + es.length ∧ imgs.length = es.length ∧
      printed s'.trace = printed s.trace ∧
      ∀ (i : Nat) e img, es[i]? = some e → imgs[i]? = some img →
        img.path = file e.name ∧ img.argv = e.argv ∧ Launched s img ∧ img.ownGroup = s.ownGroup ∧
        (∀ y, img.env.get y = (lastAssigned y ((frontAssigns e.front).map cutValue)).or (s.env.get y)) ∧
        ∀ fd, chanOf img fd = match lastOn fd e.applied with
          | some r => some (.file r.op r.file)
          | none => stageChan (fun j => s.nextPipe + j) es.length i fd := by
  obtain ⟨kid, kids, hkids, hgo⟩ := rest_foreground hres rec (procs := es.map fun e => e.ext.proc) (s := s) (by simpa using hne)
    (fun q hq => by
      obtain ⟨e, -, rfl⟩ := List.mem_map.1 hq
      rfl)
    (fun q hq => by
      obtain ⟨e, he, rfl⟩ := List.mem_map.1 hq
      exact hfn e he) (by rw [hfds]; exact stdTable_std) ht hheld
  have hlen : (kid :: kids).length = es.length := by rw [hkids.length]; simp
  have hpid : ∀ (i : Nat) q, (kid :: kids)[i]? = some q → q.1 = pid (Spec.forks s.trace + i) := by
    intro i q hq
    have h1 := hkids.pid i q hq
    rw [hpids, forks_append, forks_kids, List.length_take] at h1
    have := (List.getElem?_eq_some_iff.1 hq).1
    rw [Nat.min_eq_left (by omega)] at h1
    have h2 := (Option.some.inj h1).symm
    rw [h2]
    congr 1
    show i + Spec.forks s.trace = _
    omega
  have hkid : kid.1 = pid (Spec.forks s.trace) := hpid 0 kid rfl
  obtain ⟨m, hmlen⟩ : ∃ m, es.length = m + 1 := ⟨es.length - 1, by
    have := List.length_pos_iff.2 hne
    omega⟩
  obtain ⟨s', r1, r2, -, r4, r5, ⟨ws, r6⟩, r8⟩ := hgo 0 (code (Spec.forks s.trace))
    ((List.range m).map fun i => ((pid (Spec.forks s.trace + (i + 1)) : Int), code (Spec.forks s.trace + (i + 1))))
    (.err :: more)
    (by
      rw [hw, hmlen, hkid]
      unfold exits
      rw [List.range_succ_eq_map]
      simp [Function.comp_def])
    (by simpa using hm)
    (by
      simp only [List.map_map, List.mem_map, List.mem_range, Function.comp_apply, not_exists, not_and]
      intro i _ e
      rw [hkid] at e
      have := hinj _ _ (Int.ofNat.inj e)
      omega)
    (by
      intro q hq _
      obtain ⟨i, hi, e⟩ := List.mem_iff_getElem.1 hq
      have h1 := hpid (i + 1) q (by rw [List.getElem?_cons_succ, List.getElem?_eq_getElem hi, e])
      simp only [List.map_map, List.mem_map, List.mem_range, Function.comp_apply]
      refine ⟨i, ?_, by rw [h1]⟩
      rw [List.length_cons] at hlen
      omega)
  obtain ⟨imgs, i1, i2, i3⟩ := kids_existing (kid :: kids) (es.map gone) (fun i img => ∀ e, es[i]? = some e →
      img.path = file e.name ∧ img.argv = e.argv ∧ Launched s img ∧ img.ownGroup = s.ownGroup ∧
        (∀ y, img.env.get y = (lastAssigned y ((frontAssigns e.front).map cutValue)).or (s.env.get y)) ∧
        ∀ fd, chanOf img fd = match lastOn fd e.applied with
          | some r => some (.file r.op r.file)
          | none => stageChan (fun j => s.nextPipe + j) es.length i fd) (by rw [List.length_map, hlen]) (by
    intro i q hq
    have hi : i < es.length := by
      have := (List.getElem?_eq_some_iff.1 hq).1
      omega
    have he : es[i]? = some es[i] := List.getElem?_eq_getElem hi
    have hm : es[i] ∈ es := List.getElem_mem hi
    have hq' : (es.map fun e => e.ext.proc)[i]? = some es[i].ext.proc := by rw [List.getElem?_map, he]; rfl
    have hkid := hkids.kid i _ q hq' hq
    rw [List.length_map] at hkid
    have hg : (es.map gone)[i]? = some (gone es[i]) := by rw [List.getElem?_map, he]; rfl
    have hu : Uniq s.fds := by rw [hfds]; exact uniq_stdTable
    have hstd : ∀ i : Nat, i < 3 → s.fds.has i = true := by rw [hfds]; exact stdTable_std.std
    rw [hg]
    cases hgone : gone es[i] with
    | false =>
      obtain ⟨img, h1, h2, h3, h4, h5, h6, h7⟩ := KidOk.rcmd hkid (hes _ hm) (hfn _ hm) hu hstd (fun r hr tr => ho _ hm r hr _)
        (fun tr => ⟨(hrun _ hm hgone _).path, (hrun _ hm hgone _).exec, (hrun _ hm hgone (tr ++ s.trace)).nul⟩)
      refine ⟨img, fun e' he' => ?_, .inl ⟨rfl, by rw [h1]⟩⟩
      rw [he] at he'
      cases he'
      refine ⟨h2, h3, ⟨h4.1, h4.2, h4.3⟩, h5, h6, fun fd => ?_⟩
      unfold chanOf
      rw [h7, redirected_eq]
      cases lastOn fd es[i].applied with
      | some r => rfl
      | none =>
        show (((stageFd s.fds _ _ fd).filter _)).map _ = _
        rw [hfds, stdTable_filter, stageFd_chan]
    | true =>
      have ha := habs _ hm hgone
      have hend := KidOk.rmissing hkid (hes _ hm) (hfn _ hm) hu hstd (fun r hr tr => ho _ hm r hr _) ha
      refine ⟨imageOf s (file es[i].name) es[i].argv (((frontAssigns es[i].front).map cutValue).reverse ++ s.env)
        (fun fd => match lastOn fd es[i].applied with
          | some r => some (.file r.op r.file)
          | none => stageChan (fun j => s.nextPipe + j) es.length i fd), fun e' he' => ?_, .inr ⟨rfl, hend⟩⟩
      rw [he] at he'
      cases he'
      refine ⟨rfl, rfl, imageOf_launched _ _ _ _ _, rfl, fun y => lookup_assigned _ _ y, imageOf_chan _ _ _ _ fun fd h0 h1 h2 => ?_⟩
      simp only [lastOn_other _ fd h0 h1]
      exact stageChan_other _ _ _ fd h0 h1 h2)
  refine ⟨s', imgs, r1, r2, r8 more rfl, r5, r4, ?_, ?_, by rw [i1, hlen],
    by rw [r6]; exact printed_pipeline _ _ _ _, fun i e img he hi => i3 i img hi e he⟩
  · rw [r6, execs_append, execs_waited]
    show execs (Event.waited _ :: _) ++ [] = _
    simp only [execs, List.append_nil, execs_append, List.replicate_zero, List.nil_append]
    rw [i2]
  · rw [r6, forks_append, forks_waited]
    have := forks_kids (kid :: kids)
    simp only [Spec.forks, List.replicate_zero, List.nil_append, forks_append] at this ⊢
    rw [this, hlen]
    omega

end Rsh
