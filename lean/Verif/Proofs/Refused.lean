import Verif.Proofs.Pipes

/-!
# The fork loop when the system refuses a pipe or a process
-/

namespace Rsh

open Spec

/-- What became of a member of a pipeline: a child, or nothing if no process was created. -/
abbrev Slot := Option Kid

/-- The event of trying to start a child. -/
def Slot.event : Slot → Event
  | some k => k.event
  | none => .forkFailed

/-- Set the pids of those processes of a job that were created, from number `count` on. -/
def installSlots (id count : Nat) : List Slot → JobControl → JobControl
  | [], jc => jc
  | none :: l, jc => installSlots id (count + 1) l jc
  | some k :: l, jc => installSlots id (count + 1) l ((jc.modJob id (setPidAt count k.1)).updatePid id k.1)

theorem forkStep_any (w : World) (rec : List AndOr → M Int) (b : Bool) (id total : Nat)
    (p : Process) (c : SimpleCommand) (rest : List (Process × SimpleCommand)) (count : Nat)
    (pip : Int × Int) {s0 s : Sh} (std : StdFds s0.fds)
    (src : Option (Int × Nat)) (dst : Option (Int × Int × Nat)) (ok : StageOk s0.fds src dst)
    (hpip : PipOk dst pip) (hl : Loop s0 s) (hs : s.fds = stageFds s0.fds src dst)
    (hf : s0.ctx.isFunction c.name = false) :
    ∃ slot : Slot, (∀ kid, slot = some kid → KidOk w rec b id (src.map Prod.snd) (dst.map fun d => d.2.2) s0 (p, c) kid) ∧
      w.fork s.trace = slot.map Prod.fst ∧
      forkStep w rec b id total p c rest count ((src.map Prod.fst).getD (-1)) pip s =
        forkLoop w rec b id total rest (count + 1) pip pip.1 { s with
          fds := stageFds s0.fds (dst.map fun d => (d.1, d.2.2)) none
          trace := slot.event :: s.trace
          jc := installSlots id count [slot] s.jc } := by
  rcases hpid : w.fork s.trace with _ | pid
  · refine ⟨none, (fun _ h => by cases h), rfl, ?_⟩
    have assoc : forkStep w rec b id total p c rest count ((src.map Prod.fst).getD (-1)) pip s =
        (emit .forkFailed >>= fun _ =>
          (if 0 ≤ (src.map Prod.fst).getD (-1) then closeU ((src.map Prod.fst).getD (-1)) else pure () : M Unit)
            >>= fun _ =>
          closeM pip.2 >>= fun _ => forkLoop w rec b id total rest (count + 1) pip pip.1) s := by
      unfold forkStep
      rw [run_getS_bind, hpid]
      simp only
      by_cases i1 : 0 ≤ (src.map Prod.fst).getD (-1) <;>
        simp only [i1, if_true, if_false, pure_bind]
    rw [assoc, emit, run_modS_bind]
    refine (run_bind_ok (closePrev_run ok { s with trace := .forkFailed :: s.trace } hs) _).trans ?_
    obtain ⟨r, hr⟩ := closeNext_run std ok hpip { s with
      fds := stageFds s0.fds none dst
      trace := .forkFailed :: s.trace } rfl
    rw [run_bind_ok hr]
    rfl
  · obtain ⟨e, evs, hrun, hkid⟩ := kid_run w rec b id pip p c src dst ok hpip hl hs hf hpid
    refine ⟨some (pid, e, evs), (fun _ h => by cases h; exact hkid), rfl, ?_⟩
    have assoc : forkStep w rec b id total p c rest count ((src.map Prod.fst).getD (-1)) pip s =
        (runChild w (pipelineChild w rec b id pip ((src.map Prod.fst).getD (-1)) p c) >>= fun q =>
          emit (.spawn pid q.1 q.2) >>= fun _ =>
          modJc (fun jc => (jc.modJob id (setPidAt count pid)).updatePid id pid) >>= fun _ =>
          (if 0 ≤ (src.map Prod.fst).getD (-1) then closeU ((src.map Prod.fst).getD (-1)) else pure () : M Unit)
            >>= fun _ =>
          closeM pip.2 >>= fun _ => forkLoop w rec b id total rest (count + 1) pip pip.1) s := by
      unfold forkStep
      rw [run_getS_bind, hpid]
      simp only
      by_cases i1 : 0 ≤ (src.map Prod.fst).getD (-1) <;>
        simp only [i1, if_true, if_false, pure_bind]
    rw [assoc, run_bind_ok hrun, emit, run_modS_bind, modJc, run_modS_bind]
    refine (run_bind_ok (closePrev_run ok { s with
      trace := .spawn pid e evs :: s.trace
      jc := (s.jc.modJob id (setPidAt count pid)).updatePid id pid } hs) _).trans ?_
    obtain ⟨r, hr⟩ := closeNext_run std ok hpip { s with
      fds := stageFds s0.fds none dst
      trace := .spawn pid e evs :: s.trace
      jc := (s.jc.modJob id (setPidAt count pid)).updatePid id pid } rfl
    rw [run_bind_ok hr]
    rfl

/-- The events so far, newest first. -/
def slotTrace (l : List Slot) : List Event := (l.map Slot.event).reverse

/-- How the fork loop ends. -/
def LoopEnds (w : World) (s0 s : Sh) (count id total : Nat) (procs : List (Process × SimpleCommand)) (slots : List Slot)
    (r : Out Unit × Sh) : Prop :=
  (slots.length = procs.length ∧ r = (.ok (), { s with
    fds := s0.fds, nextPipe := s0.nextPipe + (total - 1)
    jc := installSlots id count slots s.jc
    trace := slotTrace slots ++ s.trace })) ∨
  (slots.length + 1 < procs.length ∧ w.pipeOk (slotTrace slots ++ s.trace) = false ∧
    ∃ src, src.map Prod.snd = inPipe s0.nextPipe (count + slots.length) ∧ StageOk s0.fds src none ∧
      r = (.err (cs!"Failed to create pipe"), { s with
        fds := stageFds s0.fds src none, nextPipe := s0.nextPipe + (count + slots.length)
        jc := installSlots id count slots s.jc
        trace := slotTrace slots ++ s.trace }))

theorem forkLoop_refused (w : World) (rec : List AndOr → M Int) (b : Bool) (id total : Nat) (p : Process)
    (c : SimpleCommand) (rest : List (Process × SimpleCommand)) (count : Nat) (prev : Int)
    (pip : Int × Int) (h : count < total - 1) {s : Sh} (hp : w.pipeOk s.trace = false) :
    forkLoop w rec b id total ((p, c) :: rest) count pip prev s = (.err (cs!"Failed to create pipe"), s) := by
  rw [forkLoop, if_pos h]
  have : pipeM w s = (.ok none, s) := by unfold pipeM; rw [hp]; rfl
  refine (run_bind_ok this _).trans ?_
  rfl

/-- The fork loop, whatever the system refuses. -/
theorem forkLoop_any (w : World) (rec : List AndOr → M Int) (b : Bool) (id total : Nat) (s0 : Sh)
    (std : StdFds s0.fds) :
    ∀ (procs : List (Process × SimpleCommand)) (count : Nat) (src : Option (Int × Nat))
      (pip : Int × Int) (s : Sh), procs ≠ [] → Loop s0 s → s.fds = stageFds s0.fds src none →
      StageOk s0.fds src none → src.map Prod.snd = inPipe s0.nextPipe count →
      s.nextPipe = s0.nextPipe + count → total = count + procs.length →
      (∀ q ∈ procs, s0.ctx.isFunction q.2.name = false) →
    ∃ slots : List Slot,
      LoopEnds w s0 s count id total procs slots (forkLoop w rec b id total procs count pip ((src.map Prod.fst).getD (-1)) s) ∧
      (∀ i, i < slots.length → i + 1 < procs.length → w.pipeOk (slotTrace (slots.take i) ++ s.trace) = true) ∧
      (∀ (i : Nat) slot, slots[i]? = some slot → w.fork (slotTrace (slots.take i) ++ s.trace) = slot.map Prod.fst) ∧
      ∀ (i : Nat) q kid, procs[i]? = some q → slots[i]? = some (some kid) →
        KidOk w rec b id (inPipe s0.nextPipe (count + i)) (outPipe s0.nextPipe (count + i) total) s0 q kid := by
  intro procs
  induction procs with
  | nil => intro _ _ _ _ h; exact absurd rfl h
  | cons q rest ih =>
    intro count src pip s _ hl hs ok hin hnp htot hext
    obtain ⟨p, c⟩ := q
    have hf : s0.ctx.isFunction c.name = false := hext (p, c) List.mem_cons_self
    cases rest with
    | nil =>
      have htot' : total = count + 1 := htot
      rw [forkLoop_last _ _ _ _ _ _ _ _ _ _ _ (by omega)]
      obtain ⟨slot, hkid, hpid, hrun⟩ := forkStep_any w rec b id total p c [] count (pip.1, -1) std src none ok rfl
        hl hs hf
      refine ⟨[slot], .inl ⟨rfl, ?_⟩, ?_, ?_, ?_⟩
      · rw [hrun, show s0.nextPipe + (total - 1) = s.nextPipe by rw [hnp]; omega]
        rfl
      · intro i _ h
        simp at h
      · intro i slot' hk
        cases i with
        | zero => cases hk; exact hpid
        | succ i => simp at hk
      · intro i q kid' hi hk
        cases i with
        | zero =>
          cases hi
          rw [Nat.add_zero, ← hin, show outPipe s0.nextPipe count total = none by
            unfold outPipe; rw [if_neg (by omega)]]
          exact hkid kid' (by simpa using hk)
        | succ i => simp at hi
    | cons q' rest' =>
      have hlen : total = count + (rest'.length + 2) := htot
      by_cases hgrant : w.pipeOk s.trace = true
      · obtain ⟨r, wr, hp, hr, hw, hne, _, _, h3⟩ := pipeM_ok (w := w) (s := s) hgrant
        have hstd : ∀ i : Nat, i < 3 → s.fds.has i = true := by
          intro i hi
          rw [hs]
          unfold stageFds
          cases src with
          | none => exact std.std i hi
          | some q =>
            simp only [List.nil_append, List.cons_append]
            rw [FdTable.has_cons, std.std i hi, Bool.or_true]
        obtain ⟨h3r, h3w⟩ := h3 hstd
        have hfree : ∀ fd, s.fds.has fd = false → s0.fds.has fd = false ∧ ∀ p k, src = some (p, k) → p ≠ fd := by
          intro fd h
          rw [hs] at h
          unfold stageFds at h
          cases src with
          | none => exact ⟨h, fun _ _ e => by cases e⟩
          | some q =>
            simp only [List.nil_append, List.cons_append] at h
            rw [FdTable.has_cons, Bool.or_eq_false_iff] at h
            refine ⟨h.2, fun p k e => ?_⟩
            cases e
            have := h.1
            simp only [decide_eq_false_iff_not] at this
            exact fun e => this e.symm
        have ok' : StageOk s0.fds src (some (r, wr, s.nextPipe)) := by
          refine ⟨ok.srcOk, fun r' wr' k' e => ?_⟩
          cases e
          exact ⟨h3r, h3w, (hfree r hr).1, (hfree wr hw).1, hne, fun p k e =>
            ⟨(hfree r hr).2 p k e, (hfree wr hw).2 p k e⟩⟩
        rw [forkLoop_pipe _ _ _ _ _ _ _ _ _ _ _ (by omega) hp]
        obtain ⟨slot, hkid, hpid, hrun⟩ := forkStep_any w rec b id total p c (q' :: rest') count (r, wr) (s := { s with
            fds := (wr, ⟨.pipeW s.nextPipe, false⟩) :: (r, ⟨.pipeR s.nextPipe, false⟩) :: s.fds
            nextPipe := s.nextPipe + 1 }) std src
          (some (r, wr, s.nextPipe)) ok' rfl (by
            obtain ⟨jc, np, tr, e⟩ := hl
            exact ⟨jc, s.nextPipe + 1, tr, by rw [e]⟩)
          (by
            show _ :: _ :: s.fds = _
            rw [hs]; rfl) hf
        rw [hrun]
        obtain ⟨slots, hend, hpipes, hpids, hkids⟩ := ih (count + 1) (some (r, s.nextPipe)) (r, wr) { s with
            nextPipe := s.nextPipe + 1
            fds := stageFds s0.fds (some (r, s.nextPipe)) none
            trace := slot.event :: s.trace
            jc := installSlots id count [slot] s.jc } (by simp)
          (by
            obtain ⟨jc, np, tr, e⟩ := hl
            exact ⟨_, _, slot.event :: tr, by rw [e]; rfl⟩)
          rfl ⟨fun p k e => by cases e; exact ⟨h3r, (hfree r hr).1⟩, fun _ _ _ e => by cases e⟩
          (by
            simp only [Option.map_some, inPipe]
            rw [if_neg (by omega), hnp]; rfl)
          (by show s.nextPipe + 1 = _; rw [hnp]; omega) (by rw [hlen, List.length_cons]; omega)
          (fun q hq => hext q (List.mem_cons_of_mem _ hq))
        have htr : ∀ l : List Slot, slotTrace l ++ slot.event :: s.trace = slotTrace (slot :: l) ++ s.trace := by
          intro l; simp [slotTrace]
        have hin1 : ∀ jc, installSlots id (count + 1) slots (installSlots id count [slot] jc) =
            installSlots id count (slot :: slots) jc := by
          intro jc; cases slot <;> rfl
        refine ⟨slot :: slots, ?_, ?_, ?_, ?_⟩
        · rcases hend with ⟨a1, a2⟩ | ⟨a1, a2, src', a3, a4, a5⟩
          · refine .inl ⟨by rw [List.length_cons, a1]; rfl, ?_⟩
            refine a2.trans ?_
            simp only [hin1, htr]
          · refine .inr ⟨by simpa using a1, ?_, src', ?_, a4, ?_⟩
            · rw [← htr]; exact a2
            · rw [a3, List.length_cons]; congr 1; omega
            · refine a5.trans ?_
              simp only [hin1, htr, List.length_cons]
              rw [show count + 1 + slots.length = count + (slots.length + 1) by omega]
        · intro i hi hi'
          cases i with
          | zero => exact hgrant
          | succ i =>
            have := hpipes i (by simpa using hi) (by simpa using hi')
            rw [List.take_succ_cons, ← htr]
            exact this
        · intro i slot' hk
          cases i with
          | zero => cases hk; exact hpid
          | succ i =>
            have := hpids i slot' (by simpa using hk)
            rw [List.take_succ_cons, ← htr]
            exact this
        · intro i q kid' hi hk
          cases i with
          | zero =>
            cases hi
            rw [Nat.add_zero, ← hin, show outPipe s0.nextPipe count total = some s.nextPipe by
              unfold outPipe; rw [if_pos (by omega), hnp]]
            exact hkid kid' (by simpa using hk)
          | succ i =>
            have := hkids i q kid' (by simpa using hi) (by simpa using hk)
            rw [show count + (i + 1) = count + 1 + i by omega]
            exact this
      · have hno : w.pipeOk s.trace = false := by simpa using hgrant
        rw [forkLoop_refused _ _ _ _ _ _ _ _ _ _ _ (by omega) hno]
        refine ⟨[], .inr ⟨by simp, hno, src, hin, ok, ?_⟩, fun i h => by simp at h, fun i _ h => by simp at h,
          fun i _ _ _ h => by simp at h⟩
        rw [show s0.nextPipe + (count + ([] : List Slot).length) = s.nextPipe by rw [hnp]; rfl, ← hs]
        rfl

/-! ## The job -/

/-- The pid recorded for a member. -/
def Slot.pid : Slot → Int
  | some k => k.1
  | none => -1

/-- The processes of a job with the pids of those that were created. -/
def withSlots : List Process → List Slot → List Process
  | p :: ps, some k :: l => { p with pid := (k.1 : Int) } :: withSlots ps l
  | p :: ps, none :: l => p :: withSlots ps l
  | ps, [] => ps
  | [], _ :: _ => []

def setSlots (count : Nat) : List Slot → List Process → List Process
  | [], ps => ps
  | none :: l, ps => setSlots (count + 1) l ps
  | some k :: l, ps => setSlots (count + 1) l (ps.modify count fun p => { p with pid := (k.1 : Int) })

theorem setSlots_eq (slots : List Slot) : ∀ (pre ps : List Process), slots.length ≤ ps.length →
    setSlots pre.length slots (pre ++ ps) = pre ++ withSlots ps slots := by
  induction slots with
  | nil => intro pre ps _; cases ps <;> rfl
  | cons slot slots ih =>
    intro pre ps h
    cases ps with
    | nil => simp at h
    | cons p ps =>
      cases slot with
      | none =>
        have := ih (pre ++ [p]) ps (by simpa using h)
        rw [List.length_append, List.append_assoc, List.append_assoc] at this
        exact this
      | some k =>
        unfold setSlots
        have e : (pre ++ p :: ps).modify pre.length (fun p => { p with pid := (k.1 : Int) }) =
            (pre ++ [{ p with pid := (k.1 : Int) }]) ++ ps := by
          clear ih h
          induction pre with
          | nil => rfl
          | cons a pre ih => simpa using ih
        rw [e]
        have := ih (pre ++ [{ p with pid := (k.1 : Int) }]) ps (by simpa using h)
        rw [List.length_append, List.append_assoc, List.append_assoc] at this
        rw [List.append_assoc]
        exact this

theorem installSlots_eq (id : Nat) (slots : List Slot) : ∀ (count : Nat) (jc : JobControl),
    (installSlots id count slots jc).table = jc.table.map (fun p =>
      if p.1 = id then (p.1, { p.2 with processes := setSlots count slots p.2.processes }) else p) ∧
    (installSlots id count slots jc).bg = jc.bg ∧ (installSlots id count slots jc).current = jc.current ∧
    (installSlots id count slots jc).nextId = jc.nextId := by
  induction slots with
  | nil =>
    intro count jc
    refine ⟨?_, rfl, rfl, rfl⟩
    unfold installSlots setSlots
    conv => lhs; rw [← List.map_id jc.table]
    apply List.map_congr_left
    intro p _
    split <;> rfl
  | cons slot slots ih =>
    intro count jc
    cases slot with
    | none =>
      obtain ⟨h1, h2⟩ := ih (count + 1) jc
      exact ⟨h1, h2⟩
    | some k =>
      unfold installSlots
      obtain ⟨h1, h2, h3, h4⟩ := ih (count + 1) ((jc.modJob id (setPidAt count k.1)).updatePid id k.1)
      refine ⟨?_, h2, h3, h4⟩
      rw [h1]
      show List.map _ (List.map _ jc.table) = _
      rw [List.map_map]
      apply List.map_congr_left
      intro p _
      simp only [Function.comp]
      by_cases hp : p.1 = id
      · simp [hp, setSlots, setPidAt]
      · simp [hp]

/-- The job table after a pipeline has been started as far as it could be. -/
theorem slots_table {jc : JobControl} (h : ∀ p ∈ jc.table, p.1 < jc.nextId) (ps : List Process) (b : Bool)
    (slots : List Slot) (hl : slots.length ≤ ps.length) :
    (installSlots jc.nextId 0 slots (jc.createJob ps b).2).table =
      jc.table ++ [(jc.nextId, ⟨withSlots ps slots, jc.nextId, .stillAlive, .running, b⟩)] := by
  rw [(installSlots_eq _ _ _ _).1]
  show List.map _ (tInsert jc.nextId _ jc.table) = _
  rw [tInsert_fresh _ _ _ h, List.map_append]
  congr 1
  · conv => rhs; rw [← List.map_id jc.table]
    apply List.map_congr_left
    intro p hp
    rw [if_neg (by have := h p hp; omega)]
    rfl
  · simp only [List.map_cons, List.map_nil, if_true]
    have := setSlots_eq slots [] ps hl
    simp only [List.length_nil, List.nil_append] at this
    rw [this]

theorem withSlots_pids : ∀ {ps : List Process} {slots : List Slot}, (∀ p ∈ ps, p.pid = -1) →
    slots.length ≤ ps.length →
    (withSlots ps slots).map Process.pid = slots.map Slot.pid ++ List.replicate (ps.length - slots.length) (-1)
  | [], [], _, _ => rfl
  | p :: ps, [], h, _ => by
    have : withSlots (p :: ps) [] = p :: ps := rfl
    rw [this]
    simp only [List.map_nil, List.nil_append, List.length_nil, Nat.sub_zero]
    rw [List.eq_replicate_iff]
    refine ⟨List.length_map _, fun b hb => ?_⟩
    obtain ⟨q, hq, rfl⟩ := List.mem_map.1 hb
    exact h q hq
  | [], _ :: _, _, hl => by simp at hl
  | p :: ps, slot :: slots, h, hl => by
    have ih := withSlots_pids (ps := ps) (slots := slots) (fun q hq => h q (List.mem_cons_of_mem _ hq)) (by simpa using hl)
    cases slot with
    | none =>
      have hp := h p List.mem_cons_self
      simp only [withSlots, List.map_cons, ih, hp, Slot.pid, List.cons_append, List.length_cons, Nat.add_sub_add_right]
    | some k =>
      simp only [withSlots, List.map_cons, ih, Slot.pid, List.cons_append, List.length_cons, Nat.add_sub_add_right]

theorem withSlots_cmds : ∀ {ps : List Process} {slots : List Slot}, slots.length ≤ ps.length →
    (withSlots ps slots).map Process.cmd = ps.map Process.cmd
  | [], [], _ => rfl
  | p :: ps, [], _ => rfl
  | [], _ :: _, hl => by simp at hl
  | p :: ps, slot :: slots, hl => by
    have ih := withSlots_cmds (ps := ps) (slots := slots) (by simpa using hl)
    cases slot <;> simp only [withSlots, List.map_cons, ih]

/-! ## Starting a pipeline -/

/-- What is known of the members of a pipeline that were reached. -/
structure Slots (w : World) (rec : List AndOr → M Int) (b : Bool) (s : Sh)
    (procs : List (Process × SimpleCommand)) (slots : List Slot) : Prop where
  pipe : ∀ i, i < slots.length → i + 1 < procs.length → w.pipeOk (slotTrace (slots.take i) ++ s.trace) = true
  fork : ∀ (i : Nat) slot, slots[i]? = some slot → w.fork (slotTrace (slots.take i) ++ s.trace) = slot.map Prod.fst
  kid : ∀ (i : Nat) q kid, procs[i]? = some q → slots[i]? = some (some kid) →
    KidOk w rec b s.jc.nextId (inPipe s.nextPipe i) (outPipe s.nextPipe i procs.length)
      { s with jc := (s.jc.createJob (procs.map Prod.fst) b).2 } q kid

/-- The state of the shell when the members of a pipeline up to some point have been tried. -/
def reached (s : Sh) (b : Bool) (procs : List (Process × SimpleCommand)) (slots : List Slot) (pipes : Nat)
    (fds : FdTable) : Sh :=
  { s with
    fds := fds
    nextPipe := s.nextPipe + pipes
    jc := installSlots s.jc.nextId 0 slots (s.jc.createJob (procs.map Prod.fst) b).2
    trace := slotTrace slots ++ s.trace }

/-- A pipeline of external commands up to the end of the fork loop, whatever the system refuses. -/
theorem pipeline_any {w : World} (rec : List AndOr → M Int) (pl : Pipeline)
    {s s1 : Sh} {procs : List (Process × SimpleCommand)}
    (hexp : evalCommands w rec pl.seq { s with masked := true } = (.ok procs, s1))
    (hne : procs ≠ []) (hfun : ∀ q ∈ procs, s1.ctx.isFunction q.2.name = false) (hfds : StdFds s1.fds) :
    ∃ slots, Slots w rec pl.background s1 procs slots ∧
      ((slots.length = procs.length ∧ evalPipeline w rec pl s = (do
          afterFork w pl.background s1.jc.nextId procs.length
          interruptsOn
          let s ← getS
          pure s.exitStatus : M Int) (reached s1 pl.background procs slots (procs.length - 1) s1.fds)) ∨
       (slots.length + 1 < procs.length ∧ w.pipeOk (slotTrace slots ++ s1.trace) = false ∧
        ∃ src, src.map Prod.snd = inPipe s1.nextPipe slots.length ∧ StageOk s1.fds src none ∧
          evalPipeline w rec pl s = (.err (cs!"Failed to create pipe"),
            reached s1 pl.background procs slots slots.length (stageFds s1.fds src none)))) := by
  obtain ⟨slots, hend, hpipes, hforks, hkids⟩ := forkLoop_any w rec pl.background s1.jc.nextId procs.length
    { s1 with jc := (s1.jc.createJob (procs.map Prod.fst) pl.background).2 } hfds procs 0 none
    (-1, -1) { s1 with jc := (s1.jc.createJob (procs.map Prod.fst) pl.background).2 } hne
    ⟨_, _, [], rfl⟩ rfl ⟨fun _ _ e => (by cases e), fun _ _ _ e => (by cases e)⟩ rfl rfl (Nat.zero_add _).symm hfun
  refine ⟨slots, ⟨hpipes, hforks, ?_⟩, ?_⟩
  · intro i q kid hq hk
    have := hkids i q kid hq hk
    rw [Nat.zero_add] at this
    exact this
  have hstart : evalPipeline w rec pl s = (do
      forkLoop w rec pl.background s1.jc.nextId procs.length procs 0 (-1, -1) (-1)
      afterFork w pl.background s1.jc.nextId procs.length
      interruptsOn
      let s ← getS
      pure s.exitStatus : M Int) { s1 with jc := (s1.jc.createJob (procs.map Prod.fst) pl.background).2 } := by
    unfold evalPipeline interruptsOff
    rw [run_modS_bind, run_bind_ok hexp]
    rw [if_neg (by simpa using hne)]
    have hc : createJobM (procs.map Prod.fst) pl.background s1 =
      (.ok s1.jc.nextId, { s1 with jc := (s1.jc.createJob (procs.map Prod.fst) pl.background).2 }) := rfl
    split
    · rw [run_pure_bind]
      exact run_bind_ok hc _
    · rw [run_bind_ok (runFunctions_none rec hfun)]
      exact run_bind_ok hc _
  rw [hstart]
  rcases hend with ⟨h1, h2⟩ | ⟨h1, h2, src, h3, h4, h5⟩
  · exact .inl ⟨h1, run_bind_ok h2 _⟩
  · refine .inr ⟨h1, h2, src, by rw [h3, Nat.zero_add], h4, ?_⟩
    rw [Nat.zero_add] at h5
    exact run_bind_err h5 _

end Rsh
