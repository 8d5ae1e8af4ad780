import Verif.Proofs.Fds
import Verif.Proofs.Child
import Verif.Spec.External

/-!
# Starting the processes of a pipeline
-/

namespace Rsh

open Spec

/-- What a pipeline member does after its descriptors have been connected. -/
def childBody (w : World) (rec : List AndOr → M Int) (p : Process) (c : SimpleCommand) : M Unit := do
  evalPrefixSuffix w c
  let s ← getS
  if s.ctx.isFunction c.name then do
    callFunction rec c
    exitM 0
  else do
    match ← tryE (do
        let s ← getS
        tempExecve w p.argv0 p.argv s.env) with
    | .ok _ => panicM .explicit
    | .error _ => do
      eprintlnM (p.cmd ++ cs!": Command not found\n")
      exitM 1

/-- The descriptors of a pipeline member: standard input and output may be pipe ends, all others are
the shell's own. -/
def stageFd (B : FdTable) (inp out : Option Nat) (fd : Int) : Option FdE :=
  match inp, out with
  | some k, some k' => if fd = 0 then some ⟨.pipeR k, false⟩ else if fd = 1 then some ⟨.pipeW k', false⟩
      else B.get fd
  | some k, none => if fd = 0 then some ⟨.pipeR k, false⟩ else B.get fd
  | none, some k' => if fd = 1 then some ⟨.pipeW k', false⟩ else B.get fd
  | none, none => B.get fd

/-- No descriptor occurs twice. -/
def Uniq (t : FdTable) : Prop := (t.map Prod.fst).Nodup

theorem Uniq.erase {t : FdTable} (h : Uniq t) (fd : Int) : Uniq (t.erase fd) :=
  List.Nodup.sublist (List.Sublist.map _ (List.filter_sublist)) h

theorem Uniq.cons {t : FdTable} (h : Uniq t) {fd : Int} (hn : t.has fd = false) (e : FdE) :
    Uniq ((fd, e) :: t) := by
  refine List.nodup_cons.2 ⟨fun hm => ?_, h⟩
  rw [(FdTable.has_iff t fd).2 hm] at hn
  cases hn

theorem Uniq.set {t : FdTable} (h : Uniq t) (fd : Int) (e : FdE) : Uniq (t.set fd e) := by
  refine Uniq.cons (h.erase fd) ?_ e
  unfold FdTable.has
  rw [FdTable.get_erase, if_pos rfl]
  rfl

/-- The state of a pipeline member when its descriptors have been connected, against that of the shell. -/
structure KidState (w : World) (b : Bool) (id : Nat) (inp out : Option Nat) (s x : Sh) : Prop where
  fds : ∀ fd, x.fds.get fd = stageFd s.fds inp out fd
  uniq : Uniq s.fds → Uniq x.fds
  rest : ∃ jc np tr, x = { s with
    forked := true, held := id :: s.held, ownGroup := b || s.ownGroup, fds := x.fds
    waits := w.childWaits x.trace, jc := jc, nextPipe := np, trace := tr ++ s.trace }

/-- The descriptors in the shell when a pipeline member is forked: the read end of the previous pipe and
both ends of the next one are open. -/
def stageFds (B : FdTable) (src : Option (Int × Nat)) (dst : Option (Int × Int × Nat)) : FdTable :=
  (match dst with
   | none => []
   | some (r, wr, k) => [(wr, ⟨.pipeW k, false⟩), (r, ⟨.pipeR k, false⟩)]) ++
  ((match src with
   | none => []
   | some (p, k) => [(p, ⟨.pipeR k, false⟩)]) ++ B)

/-- Those descriptors are new, different and not 0, 1 or 2. -/
structure StageOk (B : FdTable) (src : Option (Int × Nat)) (dst : Option (Int × Int × Nat)) : Prop where
  srcOk : ∀ p k, src = some (p, k) → 3 ≤ p ∧ B.has p = false
  dstOk : ∀ r wr k, dst = some (r, wr, k) → 3 ≤ r ∧ 3 ≤ wr ∧ B.has r = false ∧ B.has wr = false ∧ wr ≠ r ∧
    ∀ p k, src = some (p, k) → p ≠ r ∧ p ≠ wr

theorem not_has_get {t : FdTable} {fd : Int} (h : t.has fd = false) : t.get fd = none := by
  unfold FdTable.has at h
  cases e : t.get fd with
  | none => rfl
  | some e' => rw [e] at h; cases h

theorem get_cons (t : FdTable) (fd fd' : Int) (e : FdE) :
    FdTable.get ((fd, e) :: t) fd' = if fd' = fd then some e else t.get fd' := by
  unfold FdTable.get
  rw [List.lookup_cons]
  by_cases h : fd' = fd
  · subst h; simp
  · rw [show (fd' == fd) = false by simpa using h, if_neg h]

theorem has_of_get {t : FdTable} {fd : Int} {e : FdE} (h : t.get fd = some e) : t.has fd = true := by
  unfold FdTable.has; rw [h]; rfl

/-- The write end of the next pipe on top of other descriptors. -/
def withDst (dst : Option (Int × Int × Nat)) (f : Int → Option FdE) (fd : Int) : Option FdE :=
  match dst with
  | none => f fd
  | some (_, wr, k) => if fd = wr then some ⟨.pipeW k, false⟩ else f fd

/-- The descriptors of the next pipe, `-1` when there is none. -/
def PipOk (dst : Option (Int × Int × Nat)) (pip : Int × Int) : Prop :=
  match dst with
  | none => pip.2 = -1
  | some (r, wr, _) => pip = (r, wr)

theorem stageFds_uniq {B : FdTable} (h : Uniq B) {src : Option (Int × Nat)} {dst : Option (Int × Int × Nat)}
    (ok : StageOk B src dst) : Uniq (stageFds B src dst) := by
  have h1 : Uniq (stageFds B src none) := by
    cases src with
    | none => exact h
    | some q => exact h.cons (ok.srcOk q.1 q.2 rfl).2 _
  cases dst with
  | none => exact h1
  | some d =>
    obtain ⟨r, wr, k⟩ := d
    obtain ⟨-, -, hr, hw, hne, hsd⟩ := ok.dstOk r wr k rfl
    have hB : ∀ fd, B.has fd = false → (∀ p kp, src = some (p, kp) → p ≠ fd) →
        (stageFds B src none).has fd = false := by
      intro fd hf hp
      cases src with
      | none => exact hf
      | some q =>
        obtain ⟨p, kp⟩ := q
        show FdTable.has ((p, _) :: B) fd = false
        rw [FdTable.has_cons, hf]
        simpa using fun e => hp p kp rfl e.symm
    have h2 := h1.cons (hB r hr fun p kp e => (hsd p kp e).1) ⟨.pipeR k, false⟩
    refine h2.cons ?_ _
    rw [FdTable.has_cons, hB wr hw fun p kp e => (hsd p kp e).2]
    simpa using hne

/-- Connecting the descriptors of a pipeline member. -/
theorem pipelineChild_plumb (w : World) (rec : List AndOr → M Int) (b : Bool) (id : Nat)
    (pip : Int × Int) (p : Process) (c : SimpleCommand) (B : FdTable)
    (src : Option (Int × Nat)) (dst : Option (Int × Int × Nat)) (ok : StageOk B src dst)
    (hpip : PipOk dst pip)
    (s0 : Sh) (hs0 : s0.fds = stageFds B src dst) :
    ∃ F : FdTable, (∀ fd, F.get fd = stageFd B (src.map Prod.snd) (dst.map fun d => d.2.2) fd) ∧
      (Uniq B → Uniq F) ∧
      pipelineChild w rec b id pip ((src.map Prod.fst).getD (-1)) p c s0 =
        childBody w rec p c { s0 with forked := true, held := id :: s0.held, ownGroup := (b || s0.ownGroup),
                                      fds := F } := by
  have h0 : ∀ s : Sh, ∃ o, o = (b || s.ownGroup) ∧
      (if b = true then modS fun s => { s with ownGroup := true } else pure () : M Unit) s =
        (.ok (), { s with ownGroup := o }) := by
    intro s
    refine ⟨_, rfl, ?_⟩
    cases b <;> rfl
  -- the two ends of the next pipe, the previous read end
  have h1 : ∀ s : Sh, s.fds = stageFds B src dst →
      ∃ F1, (∀ fd, F1.get fd = withDst dst (stageFds B src none).get fd) ∧ (Uniq s.fds → Uniq F1) ∧
      (if 0 ≤ pip.2 then closeU pip.1 else pure () : M Unit) s = (.ok (), { s with fds := F1 }) := by
    intro s hs
    cases dst with
    | none =>
      simp only [PipOk] at hpip
      rw [if_neg (by rw [hpip]; omega)]
      exact ⟨s.fds, fun fd => by rw [hs]; rfl, fun h => h, rfl⟩
    | some d =>
      obtain ⟨r, wr, k⟩ := d
      obtain ⟨h3r, h3w, hr, hw, hne, hsd⟩ := ok.dstOk r wr k rfl
      simp only [PipOk] at hpip
      subst hpip
      simp only
      rw [if_pos (by omega)]
      refine ⟨s.fds.erase r, fun fd => ?_, fun h => h.erase r, closeU_has ?_⟩
      · rw [FdTable.get_erase, hs]
        unfold stageFds withDst
        simp only [List.cons_append, List.nil_append]
        rw [get_cons, get_cons]
        by_cases e1 : fd = r
        · subst e1
          rw [if_pos rfl, if_neg (fun e => hne e.symm)]
          cases src with
          | none => exact (not_has_get hr).symm
          | some q =>
            obtain ⟨p, kp⟩ := q
            simp only [List.cons_append, List.nil_append]
            rw [get_cons, if_neg fun e => (hsd p kp rfl).1 e.symm]
            exact (not_has_get hr).symm
        · rw [if_neg e1, if_neg e1]
      · refine has_of_get (e := ⟨.pipeR k, false⟩) ?_
        rw [hs]
        unfold stageFds
        simp only [List.cons_append, List.nil_append]
        rw [get_cons, get_cons, if_neg (fun e => hne e.symm), if_pos rfl]
  have h2 : ∀ (s : Sh) (F1 : FdTable), s.fds = F1 → (∀ fd, F1.get fd = withDst dst (stageFds B src none).get fd) →
      ∃ F2, (∀ fd, F2.get fd = withDst dst (stageFd B (src.map Prod.snd) none) fd) ∧ (Uniq s.fds → Uniq F2) ∧
      (if 0 < (src.map Prod.fst).getD (-1) then do
          dup2U ((src.map Prod.fst).getD (-1)) 0
          closeU ((src.map Prod.fst).getD (-1))
        else pure () : M Unit) s = (.ok (), { s with fds := F2 }) := by
    intro s F1 hs hF
    cases src with
    | none =>
      refine ⟨F1, fun fd => ?_, fun h => by rw [← hs]; exact h, ?_⟩
      · rw [hF]; rfl
      · simp only [Option.map_none, Option.getD_none]
        rw [if_neg (by omega), ← hs]
        rfl
    | some q =>
      obtain ⟨p, kp⟩ := q
      obtain ⟨h3p, hp⟩ := ok.srcOk p kp rfl
      simp only [Option.map_some, Option.getD_some]
      rw [if_pos (by omega)]
      have hpw : ∀ r wr k, dst = some (r, wr, k) → p ≠ wr := fun r wr k e => ((ok.dstOk r wr k e).2.2.2.2.2 p kp rfl).2
      have hget : s.fds.get p = some ⟨.pipeR kp, false⟩ := by
        rw [hs, hF]
        cases dst with
        | none =>
          show FdTable.get ((p, _) :: B) p = _
          rw [get_cons, if_pos rfl]
        | some d =>
          obtain ⟨r, wr, k⟩ := d
          simp only [withDst]
          rw [if_neg (hpw r wr k rfl)]
          show FdTable.get ((p, _) :: B) p = _
          rw [get_cons, if_pos rfl]
      rw [run_bind_ok (dup2U_has hget (by omega))]
      rw [closeU_has (by
        refine has_of_get (e := ⟨.pipeR kp, false⟩) ?_
        show FdTable.get (FdTable.set s.fds 0 _) p = _
        rw [FdTable.get_set, if_neg (by omega), hget])]
      refine ⟨_, fun fd => ?_, fun h => (h.set _ _).erase _, rfl⟩
      show FdTable.get (FdTable.erase (FdTable.set s.fds 0 _) p) fd = _
      rw [FdTable.get_erase, FdTable.get_set, hs, hF]
      have hbase : ∀ fd, fd ≠ p → (stageFds B (some (p, kp)) none).get fd = B.get fd := by
        intro fd h
        show FdTable.get ((p, _) :: B) fd = _
        rw [get_cons, if_neg h]
      have hbp : B.get p = none := not_has_get hp
      cases dst with
      | none =>
        simp only [stageFd, withDst]
        by_cases e1 : fd = p
        · subst e1; rw [if_pos rfl, if_neg (by omega), hbp]
        · rw [if_neg e1, hbase fd e1]
      | some d =>
        obtain ⟨r, wr, k⟩ := d
        have h3w := (ok.dstOk r wr k rfl).2.1
        simp only [stageFd, withDst]
        by_cases e1 : fd = p
        · subst e1; rw [if_pos rfl, if_neg (hpw r wr k rfl), if_neg (by omega), hbp]
        · rw [if_neg e1]
          by_cases e2 : fd = wr
          · subst e2; rw [if_pos rfl, if_neg (by omega), if_pos rfl]
          · rw [if_neg e2, if_neg e2, hbase fd e1]
  have h3 : ∀ (s : Sh) (F2 : FdTable), s.fds = F2 → (∀ fd, F2.get fd = withDst dst (stageFd B (src.map Prod.snd) none) fd) →
      ∃ F3, (∀ fd, F3.get fd = stageFd B (src.map Prod.snd) (dst.map fun d => d.2.2) fd) ∧
        (Uniq s.fds → Uniq F3) ∧
      (if 1 < pip.2 then do
          dup2U pip.2 1
          closeU pip.2
        else pure () : M Unit) s = (.ok (), { s with fds := F3 }) := by
    intro s F2 hs hF
    cases dst with
    | none =>
      simp only [PipOk] at hpip
      rw [if_neg (by rw [hpip]; omega)]
      exact ⟨s.fds, fun fd => by rw [hs, hF]; rfl, fun h => h, rfl⟩
    | some d =>
      obtain ⟨r, wr, k⟩ := d
      obtain ⟨h3r, h3w, hr, hw, hne, hsd⟩ := ok.dstOk r wr k rfl
      simp only [PipOk] at hpip
      subst hpip
      simp only [withDst] at hF ⊢
      rw [if_pos (by omega)]
      have hget : s.fds.get wr = some ⟨.pipeW k, false⟩ := by rw [hs, hF, if_pos rfl]
      rw [run_bind_ok (dup2U_has hget (by omega))]
      rw [closeU_has (by
        refine has_of_get (e := ⟨.pipeW k, false⟩) ?_
        show FdTable.get (FdTable.set s.fds 1 _) wr = _
        rw [FdTable.get_set, if_neg (by omega), hget])]
      refine ⟨_, fun fd => ?_, fun h => (h.set _ _).erase _, rfl⟩
      show FdTable.get (FdTable.erase (FdTable.set s.fds 1 _) wr) fd = _
      rw [FdTable.get_erase, FdTable.get_set, hs, hF]
      have hbw : B.get wr = none := not_has_get hw
      have hs : stageFd B (src.map Prod.snd) none wr = none := by
        cases src with
        | none => exact hbw
        | some q =>
          show (if wr = 0 then _ else _) = _
          rw [if_neg (by omega), hbw]
      have hval : ∀ fd, stageFd B (src.map Prod.snd) (some k) fd =
          if fd = 1 then some ⟨.pipeW k, false⟩ else stageFd B (src.map Prod.snd) none fd := by
        intro fd
        cases src with
        | none => rfl
        | some q =>
          simp only [stageFd, Option.map_some]
          by_cases e0 : fd = 0
          · subst e0; simp
          · simp [e0]
      simp only [Option.map_some]
      rw [hval]
      by_cases e1 : fd = wr
      · subst e1; rw [if_pos rfl, if_neg (by omega), hs]
      · rw [if_neg e1, if_neg e1]
  obtain ⟨o, ho, e0⟩ := h0 { s0 with forked := true, held := id :: s0.held }
  obtain ⟨F1, hF1, u1, e1⟩ := h1 { s0 with forked := true, held := id :: s0.held, ownGroup := o } hs0
  obtain ⟨F2, hF2, u2, e2⟩ := h2 { s0 with forked := true, held := id :: s0.held, ownGroup := o, fds := F1 } F1 rfl hF1
  obtain ⟨F3, hF3, u3, e3⟩ := h3 { s0 with forked := true, held := id :: s0.held, ownGroup := o, fds := F2 } F2 rfl hF2
  refine ⟨F3, hF3, fun h => u3 (u2 (u1 (by
    show Uniq s0.fds
    rw [hs0]
    exact stageFds_uniq h ok))), ?_⟩
  have assoc : pipelineChild w rec b id pip ((src.map Prod.fst).getD (-1)) p c =
      (modS fun s => { s with forked := true, held := id :: s.held }) >>= fun _ =>
      (if b = true then modS fun s => { s with ownGroup := true } else pure () : M Unit) >>= fun _ =>
      (if 0 ≤ pip.2 then closeU pip.1 else pure () : M Unit) >>= fun _ =>
      (if 0 < (src.map Prod.fst).getD (-1) then do
          dup2U ((src.map Prod.fst).getD (-1)) 0
          closeU ((src.map Prod.fst).getD (-1))
        else pure () : M Unit) >>= fun _ =>
      (if 1 < pip.2 then do
          dup2U pip.2 1
          closeU pip.2
        else pure () : M Unit) >>= fun _ => childBody w rec p c := by
    unfold pipelineChild childBody
    dsimp only
    refine bind_congr fun _ => ?_
    by_cases hb : b = true <;> by_cases i1 : 0 ≤ pip.2 <;>
      by_cases i2 : 0 < (src.map Prod.fst).getD (-1) <;> by_cases i3 : 1 < pip.2 <;>
      simp only [hb, i1, i2, i3, if_true, if_false, bind_assoc, pure_bind] <;> rfl
  rw [assoc, run_modS_bind, run_bind_ok e0, run_bind_ok e1, run_bind_ok e2, run_bind_ok e3, ho]

/-- Set the pids of the processes of a job, from number `count` on. -/
def installPids (id count : Nat) : List Nat → JobControl → JobControl
  | [], jc => jc
  | pid :: pids, jc => installPids id (count + 1) pids ((jc.modJob id (setPidAt count pid)).updatePid id pid)

/-- A started child: pid, end and events. -/
abbrev Kid := Nat × ChildEnd × List Event

/-- The event of starting a child. -/
def Kid.event (k : Kid) : Event := .spawn k.1 k.2.1 k.2.2

/-- The pipe a member reads from, and the one it writes to; `k` is the number of the first pipe. -/
def inPipe (k i : Nat) : Option Nat := if i = 0 then none else some (k + (i - 1))
/-- See `inPipe`. -/
def outPipe (k i total : Nat) : Option Nat := if i + 1 < total then some (k + i) else none

/-- What is known of member number `i`. -/
def KidOk (w : World) (rec : List AndOr → M Int) (b : Bool) (id : Nat) (inp out : Option Nat)
    (s : Sh) (q : Process × SimpleCommand) (kid : Kid) : Prop :=
  ∃ x, KidState w b id inp out s x ∧ (∃ t, x.trace = .born :: t ∧ w.fork t = some kid.1) ∧
    childEnd (childBody w rec q.1 q.2 x).1 (childBody w rec q.1 q.2 x).2 = some kid.2.1 ∧
    kid.2.2 = newEvents x.trace (childBody w rec q.1 q.2 x).2.trace

/-- The fork loop started from `s0` has come to `s`. -/
def Loop (s0 s : Sh) : Prop :=
  ∃ jc np tr, s = { s0 with fds := s.fds, jc := jc, nextPipe := np, trace := tr ++ s0.trace }

/-- One forked member. -/
theorem kid_run (w : World) (rec : List AndOr → M Int) (b : Bool) (id : Nat)
    (pip : Int × Int) (p : Process) (c : SimpleCommand) {s0 s : Sh}
    (src : Option (Int × Nat)) (dst : Option (Int × Int × Nat)) (ok : StageOk s0.fds src dst)
    (hpip : PipOk dst pip)
    (hl : Loop s0 s) (hs : s.fds = stageFds s0.fds src dst) (hf : s0.ctx.isFunction c.name = false)
    {pid : Nat} (hpid : w.fork s.trace = some pid) :
    ∃ e evs, runChild w (pipelineChild w rec b id pip ((src.map Prod.fst).getD (-1)) p c) s =
        (.ok (e, evs), s) ∧
      KidOk w rec b id (src.map Prod.snd) (dst.map fun d => d.2.2) s0 (p, c) (pid, e, evs) := by
  obtain ⟨F, hF, hu, hrun⟩ := pipelineChild_plumb w rec b id pip p c s0.fds src dst ok hpip
    (childStart w s) hs
  obtain ⟨jc, np, tr, e⟩ := hl
  have hfs : s.ctx.isFunction c.name = false := by rw [e]; exact hf
  obtain ⟨en, evs, hr⟩ := runChild_external w rec b id pip ((src.map Prod.fst).getD (-1)) p c s hfs
  refine ⟨en, evs, hr, { childStart w s with
    forked := true
    held := id :: s.held
    ownGroup := b || s.ownGroup
    fds := F }, ⟨hF, hu, jc, np, .born :: tr, ?_⟩, ⟨s.trace, rfl, hpid⟩, ?_⟩
  · unfold childStart; rw [e]; rfl
  · unfold runChild at hr
    rw [hrun] at hr
    simp only at hr
    split at hr
    · next e' he =>
      have := (Prod.mk.inj hr).1
      simp only [Out.ok.injEq, Prod.mk.injEq] at this
      refine ⟨?_, this.2.symm⟩
      rw [← this.1]
      exact he
    · cases hr

/-- One round of the fork loop after the pipe has been created. -/
def forkStep (w : World) (rec : List AndOr → M Int) (b : Bool) (id total : Nat) (p : Process)
    (c : SimpleCommand) (rest : List (Process × SimpleCommand)) (count : Nat) (prev : Int)
    (pip : Int × Int) : M Unit := do
  let s ← getS
  match w.fork s.trace with
  | none => emit .forkFailed
  | some pid => do
    let (e, evs) ← runChild w (pipelineChild w rec b id pip prev p c)
    emit (.spawn pid e evs)
    modJc fun jc => (jc.modJob id (setPidAt count pid)).updatePid id pid
  if 0 ≤ prev then closeU prev else pure ()
  let _ ← closeM pip.2
  forkLoop w rec b id total rest (count + 1) pip pip.1

theorem forkLoop_last (w : World) (rec : List AndOr → M Int) (b : Bool) (id total : Nat) (p : Process)
    (c : SimpleCommand) (rest : List (Process × SimpleCommand)) (count : Nat) (prev : Int)
    (pip : Int × Int) (h : ¬ count < total - 1) (s : Sh) :
    forkLoop w rec b id total ((p, c) :: rest) count pip prev s =
      forkStep w rec b id total p c rest count prev (pip.1, -1) s := by
  rw [forkLoop, if_neg h]
  rfl

theorem forkLoop_pipe (w : World) (rec : List AndOr → M Int) (b : Bool) (id total : Nat) (p : Process)
    (c : SimpleCommand) (rest : List (Process × SimpleCommand)) (count : Nat) (prev : Int)
    (pip : Int × Int) (h : count < total - 1) {s s1 : Sh} {pr : Int × Int}
    (hp : pipeM w s = (.ok (some pr), s1)) :
    forkLoop w rec b id total ((p, c) :: rest) count pip prev s =
      forkStep w rec b id total p c rest count prev pr s1 := by
  rw [forkLoop, if_pos h, run_bind_ok hp]
  rfl

/-- Closing the read end of the previous pipe. -/
theorem closePrev_run {B : FdTable} {src : Option (Int × Nat)} {dst : Option (Int × Int × Nat)}
    (ok : StageOk B src dst) : ∀ (s : Sh), s.fds = stageFds B src dst →
    (if 0 ≤ (src.map Prod.fst).getD (-1) then closeU ((src.map Prod.fst).getD (-1)) else pure () : M Unit) s =
      (.ok (), { s with fds := stageFds B none dst }) := by
  intro s hs
  cases src with
  | none =>
    show (Out.ok (), s) = _
    rw [← hs]
  | some q =>
    obtain ⟨r, k⟩ := q
    obtain ⟨h3, hr⟩ := ok.srcOk r k rfl
    simp only [Option.map_some, Option.getD_some]
    rw [if_pos (by omega)]
    have hb : FdTable.erase ((r, ⟨.pipeR k, false⟩) :: B) r = B := FdTable.erase_cons_self hr _
    cases dst with
    | none =>
      rw [closeU_has (by
        rw [hs]
        simp only [stageFds, List.nil_append, List.cons_append]
        rw [FdTable.has_cons]
        simp), hs]
      simp only [stageFds, List.nil_append, List.cons_append, hb]
    | some d =>
      obtain ⟨r', wr', k'⟩ := d
      obtain ⟨_, _, _, _, _, hd⟩ := ok.dstOk r' wr' k' rfl
      obtain ⟨n1, n2⟩ := hd r k rfl
      rw [closeU_has (by
        rw [hs]
        simp only [stageFds, List.nil_append, List.cons_append]
        rw [FdTable.has_cons, FdTable.has_cons, FdTable.has_cons]
        simp), hs]
      simp only [stageFds, List.nil_append, List.cons_append]
      rw [FdTable.erase_cons_ne (fun e => n2 e.symm), FdTable.erase_cons_ne (fun e => n1 e.symm), hb]

/-- Closing the write end of the next pipe. -/
theorem closeNext_run {B : FdTable} (std : StdFds B) {src : Option (Int × Nat)}
    {dst : Option (Int × Int × Nat)} (ok : StageOk B src dst) {pip : Int × Int} (hpip : PipOk dst pip) :
    ∀ (s : Sh), s.fds = stageFds B none dst →
    ∃ r, closeM pip.2 s = (.ok r, { s with fds := stageFds B (dst.map fun d => (d.1, d.2.2)) none }) := by
  intro s hs
  cases dst with
  | none =>
    simp only [PipOk] at hpip
    refine ⟨false, ?_⟩
    rw [closeM_not (by rw [hs, hpip]; exact std.neg)]
    show (_, s) = (_, { s with fds := stageFds B none none })
    rw [← hs]
  | some d =>
    obtain ⟨r', wr', k'⟩ := d
    obtain ⟨_, _, hr', hw', hne, _⟩ := ok.dstOk r' wr' k' rfl
    simp only [PipOk] at hpip
    subst hpip
    refine ⟨true, ?_⟩
    rw [closeM_has (by
      rw [hs]
      simp only [stageFds, List.nil_append, List.cons_append]
      rw [FdTable.has_cons]
      simp), hs]
    simp only [stageFds, List.nil_append, List.cons_append, Option.map_some]
    rw [FdTable.erase_cons_self]
    rw [FdTable.has_cons, hw']
    simp [hne]

/-- One round of the fork loop with enough resources. -/
theorem forkStep_run (w : World) (rec : List AndOr → M Int) (b : Bool) (id total : Nat)
    (p : Process) (c : SimpleCommand) (rest : List (Process × SimpleCommand)) (count : Nat)
    (pip : Int × Int) {s0 s : Sh} (std : StdFds s0.fds)
    (src : Option (Int × Nat)) (dst : Option (Int × Int × Nat)) (ok : StageOk s0.fds src dst)
    (hpip : PipOk dst pip) (hl : Loop s0 s) (hs : s.fds = stageFds s0.fds src dst)
    (hf : s0.ctx.isFunction c.name = false) (hfork : ∀ tr, w.fork tr ≠ none) :
    ∃ kid : Kid, KidOk w rec b id (src.map Prod.snd) (dst.map fun d => d.2.2) s0 (p, c) kid ∧
      w.fork s.trace = some kid.1 ∧
      forkStep w rec b id total p c rest count ((src.map Prod.fst).getD (-1)) pip s =
        forkLoop w rec b id total rest (count + 1) pip pip.1 { s with
          fds := stageFds s0.fds (dst.map fun d => (d.1, d.2.2)) none
          trace := kid.event :: s.trace
          jc := (s.jc.modJob id (setPidAt count kid.1)).updatePid id kid.1 } := by
  obtain ⟨pid, hpid⟩ : ∃ pid, w.fork s.trace = some pid := Option.ne_none_iff_exists'.1 (hfork s.trace)
  obtain ⟨e, evs, hrun, hkid⟩ := kid_run w rec b id pip p c src dst ok hpip hl hs hf hpid
  refine ⟨(pid, e, evs), hkid, hpid, ?_⟩
  have hclose := closePrev_run ok
  have hclose2 := closeNext_run std ok hpip
  have assoc : forkStep w rec b id total p c rest count ((src.map Prod.fst).getD (-1)) pip s =
      (runChild w (pipelineChild w rec b id pip ((src.map Prod.fst).getD (-1)) p c) >>= fun q =>
        emit (.spawn pid q.1 q.2) >>= fun _ =>
        modJc (fun jc => (jc.modJob id (setPidAt count pid)).updatePid id pid) >>= fun _ =>
        (if 0 ≤ (src.map Prod.fst).getD (-1) then closeU ((src.map Prod.fst).getD (-1)) else pure () : M Unit)
          >>= fun _ =>
        closeM pip.2 >>= fun _ => forkLoop w rec b id total rest (count + 1) pip pip.1) s := by
    unfold forkStep
    rw [run_getS_bind, hpid]
    simp only
    by_cases i1 : 0 ≤ (src.map Prod.fst).getD (-1) <;>
      simp only [i1, if_true, if_false, pure_bind]
  rw [assoc, run_bind_ok hrun, emit, run_modS_bind, modJc, run_modS_bind]
  refine (run_bind_ok (hclose { s with
    trace := .spawn pid e evs :: s.trace
    jc := (s.jc.modJob id (setPidAt count pid)).updatePid id pid } hs) _).trans ?_
  obtain ⟨r, hr⟩ := hclose2 { s with
    fds := stageFds s0.fds none dst
    trace := .spawn pid e evs :: s.trace
    jc := (s.jc.modJob id (setPidAt count pid)).updatePid id pid } rfl
  rw [run_bind_ok hr]
  rfl

/-- The fork loop with enough resources. -/
theorem forkLoop_run (w : World) (rec : List AndOr → M Int) (b : Bool) (id total : Nat)
    (hpipe : ∀ tr, w.pipeOk tr = true) (hfork : ∀ tr, w.fork tr ≠ none) (s0 : Sh)
    (std : StdFds s0.fds) :
    ∀ (procs : List (Process × SimpleCommand)) (count : Nat) (src : Option (Int × Nat))
      (pip : Int × Int) (s : Sh), procs ≠ [] → Loop s0 s → s.fds = stageFds s0.fds src none →
      StageOk s0.fds src none → src.map Prod.snd = inPipe s0.nextPipe count →
      s.nextPipe = s0.nextPipe + count → total = count + procs.length →
      (∀ q ∈ procs, s0.ctx.isFunction q.2.name = false) →
    ∃ kids : List Kid,
      forkLoop w rec b id total procs count pip ((src.map Prod.fst).getD (-1)) s = (.ok (), { s with
        fds := s0.fds, nextPipe := s0.nextPipe + (total - 1)
        jc := installPids id count (kids.map Prod.fst) s.jc
        trace := (kids.map Kid.event).reverse ++ s.trace }) ∧
      kids.length = procs.length ∧
      (∀ (i : Nat) kid, kids[i]? = some kid →
        w.fork (((kids.take i).map Kid.event).reverse ++ s.trace) = some kid.1) ∧
      ∀ (i : Nat) q kid, procs[i]? = some q → kids[i]? = some kid →
        KidOk w rec b id (inPipe s0.nextPipe (count + i)) (outPipe s0.nextPipe (count + i) total) s0 q kid := by
  intro procs
  induction procs with
  | nil => intro _ _ _ _ h; exact absurd rfl h
  | cons q rest ih =>
    intro count src pip s _ hl hs ok hin hnp htot hext
    obtain ⟨p, c⟩ := q
    have hf : s0.ctx.isFunction c.name = false := hext (p, c) List.mem_cons_self
    cases rest with
    | nil =>
      have htot' : total = count + 1 := htot
      rw [forkLoop_last _ _ _ _ _ _ _ _ _ _ _ (by omega)]
      obtain ⟨kid, hkid, hpid, hrun⟩ := forkStep_run w rec b id total p c [] count (pip.1, -1) std src none ok rfl
        hl hs hf hfork
      refine ⟨[kid], ?_, rfl, ?_, ?_⟩
      · rw [hrun, show s0.nextPipe + (total - 1) = s.nextPipe by rw [hnp]; omega]
        rfl
      · intro i kid' hk
        cases i with
        | zero => cases hk; exact hpid
        | succ i => simp at hk
      · intro i q kid' hi hk
        cases i with
        | zero =>
          cases hi; cases hk
          rw [Nat.add_zero, ← hin, show outPipe s0.nextPipe count total = none by
            unfold outPipe; rw [if_neg (by omega)]]
          exact hkid
        | succ i => simp at hi
    | cons q' rest' =>
      have hlen : total = count + (rest'.length + 2) := htot
      obtain ⟨r, wr, hp, hr, hw, hne, _, _, h3⟩ := pipeM_ok (w := w) (s := s) (hpipe s.trace)
      have hstd : ∀ i : Nat, i < 3 → s.fds.has i = true := by
        intro i hi
        rw [hs]
        unfold stageFds
        cases src with
        | none => exact std.std i hi
        | some q =>
          simp only [List.nil_append, List.cons_append]
          rw [FdTable.has_cons, std.std i hi, Bool.or_true]
      obtain ⟨h3r, h3w⟩ := h3 hstd
      have hfree : ∀ fd, s.fds.has fd = false → s0.fds.has fd = false ∧ ∀ p k, src = some (p, k) → p ≠ fd := by
        intro fd h
        rw [hs] at h
        unfold stageFds at h
        cases src with
        | none => exact ⟨h, fun _ _ e => by cases e⟩
        | some q =>
          simp only [List.nil_append, List.cons_append] at h
          rw [FdTable.has_cons, Bool.or_eq_false_iff] at h
          refine ⟨h.2, fun p k e => ?_⟩
          cases e
          have := h.1
          simp only [decide_eq_false_iff_not] at this
          exact fun e => this e.symm
      have ok' : StageOk s0.fds src (some (r, wr, s.nextPipe)) := by
        refine ⟨ok.srcOk, fun r' wr' k' e => ?_⟩
        cases e
        exact ⟨h3r, h3w, (hfree r hr).1, (hfree wr hw).1, hne, fun p k e =>
          ⟨(hfree r hr).2 p k e, (hfree wr hw).2 p k e⟩⟩
      rw [forkLoop_pipe _ _ _ _ _ _ _ _ _ _ _ (by omega) hp]
      obtain ⟨kid, hkid, hpid, hrun⟩ := forkStep_run w rec b id total p c (q' :: rest') count (r, wr) (s := { s with
          fds := (wr, ⟨.pipeW s.nextPipe, false⟩) :: (r, ⟨.pipeR s.nextPipe, false⟩) :: s.fds
          nextPipe := s.nextPipe + 1 }) std src
        (some (r, wr, s.nextPipe)) ok' rfl (by
          obtain ⟨jc, np, tr, e⟩ := hl
          exact ⟨jc, s.nextPipe + 1, tr, by rw [e]⟩)
        (by
          show _ :: _ :: s.fds = _
          rw [hs]; rfl) hf hfork
      rw [hrun]
      obtain ⟨kids, hrun', hlen', hpids, hkids⟩ := ih (count + 1) (some (r, s.nextPipe)) (r, wr) { s with
          nextPipe := s.nextPipe + 1
          fds := stageFds s0.fds (some (r, s.nextPipe)) none
          trace := kid.event :: s.trace
          jc := (s.jc.modJob id (setPidAt count kid.1)).updatePid id kid.1 } (by simp)
        (by
          obtain ⟨jc, np, tr, e⟩ := hl
          exact ⟨_, _, kid.event :: tr, by rw [e]; rfl⟩)
        rfl ⟨fun p k e => by cases e; exact ⟨h3r, (hfree r hr).1⟩, fun _ _ _ e => by cases e⟩
        (by
          simp only [Option.map_some, inPipe]
          rw [if_neg (by omega), hnp]; rfl)
        (by show s.nextPipe + 1 = _; rw [hnp]; omega) (by rw [hlen, List.length_cons]; omega)
        (fun q hq => hext q (List.mem_cons_of_mem _ hq))
      refine ⟨kid :: kids, ?_, by rw [List.length_cons, hlen']; rfl, ?_, ?_⟩
      · refine hrun'.trans ?_
        simp [installPids]
      · intro i kid' hk
        cases i with
        | zero => cases hk; exact hpid
        | succ i =>
          have := hpids i kid' (by simpa using hk)
          simpa using this
      · intro i q kid' hi hk
        cases i with
        | zero =>
          cases hi; cases hk
          rw [Nat.add_zero, ← hin, show outPipe s0.nextPipe count total = some s.nextPipe by
            unfold outPipe; rw [if_pos (by omega), hnp]]
          exact hkid
        | succ i =>
          have := hkids i q kid' (by simpa using hi) (by simpa using hk)
          rw [show count + (i + 1) = count + 1 + i by omega]
          exact this

/-! ## Expanding commands -/

/-- Expansion leaves everything but the events and the number of the next pipe. -/
def Expands (s s' : Sh) : Prop := ∃ np tr, s' = { s with nextPipe := np, trace := tr ++ s.trace }

theorem Expands.eframe : EFrame Expands (fun _ _ => True) where
  refl s := ⟨s.nextPipe, [], rfl⟩
  trans := by
    rintro a b c ⟨n1, t1, rfl⟩ ⟨n2, t2, rfl⟩
    exact ⟨n2, t2 ++ t1, by simp⟩
  rq := fun _ => trivial
  rqq := fun _ _ => trivial
  trace s e _ := ⟨s.nextPipe, [e], rfl⟩

theorem runChild_ok {w : World} {m : M α} {s s1 : Sh} {q : ChildEnd × List Event}
    (h : runChild w m s = (.ok q, s1)) : s1 = s := by
  unfold runChild at h
  rcases hb : m (childStart w s) with ⟨o, s2⟩
  rw [hb] at h
  simp only at h
  split at h
  · exact (Prod.mk.inj h).2.symm
  · cases h

theorem unwrapM_ok {k : PanicKind} {o : Option α} {a : α} {s s' : Sh}
    (h : unwrapM k o s = (.ok a, s')) : o = some a ∧ s' = s := by
  cases o with
  | none => cases h
  | some b => cases h; exact ⟨rfl, rfl⟩

/-- `m` never returns an error. -/
def NoErr (m : M α) : Prop := ∀ s e s', m s ≠ (.err e, s')

theorem NoErr.bind {m : M α} {f : α → M β} (hm : NoErr m) (hf : ∀ a, NoErr (f a)) : NoErr (m >>= f) := by
  intro s e s' h
  rw [run_bind] at h
  rcases hr : m s with ⟨o, s1⟩
  rw [hr] at h
  cases o with
  | ok a => exact hf a s1 e s' h
  | err e' => exact hm s e' s1 hr
  | _ => cases h

theorem NoErr.pure (a : α) : NoErr (Pure.pure a : M α) := fun _ _ _ h => by cases h
theorem NoErr.getS : NoErr Rsh.getS := fun _ _ _ h => by cases h
theorem NoErr.modS (f : Sh → Sh) : NoErr (Rsh.modS f) := fun _ _ _ h => by cases h
theorem NoErr.hangM : NoErr (Rsh.hangM : M α) := fun _ _ _ h => by cases h
theorem NoErr.panicM (k : PanicKind) : NoErr (Rsh.panicM k : M α) := fun _ _ _ h => by cases h
theorem NoErr.unwrapM (k : PanicKind) (o : Option α) : NoErr (Rsh.unwrapM k o) := by
  cases o with
  | none => exact .panicM k
  | some a => exact .pure a
theorem NoErr.ite {c : Prop} [Decidable c] {a b : M α} (ha : NoErr a) (hb : NoErr b) :
    NoErr (if c then a else b) := by split <;> assumption

theorem NoErr.pipeM (w : World) : NoErr (Rsh.pipeM w) := by
  intro s e s' h
  unfold Rsh.pipeM at h
  split at h <;> cases h

theorem NoErr.closeU (fd : Int) : NoErr (Rsh.closeU fd) := by
  refine .bind (fun s e s' h => ?_) fun _ => .ite (.pure _) (.panicM _)
  unfold closeM at h
  split at h <;> cases h

theorem NoErr.runChild (w : World) (m : M α) : NoErr (Rsh.runChild w m) := by
  intro s e s' h
  unfold Rsh.runChild at h
  rcases hb : m (childStart w s) with ⟨o, s2⟩
  rw [hb] at h
  simp only at h
  split at h <;> cases h

theorem NoErr.onSigOther (w : World) (g : Nat) : NoErr (Rsh.onSigOther w g) := by
  unfold Rsh.onSigOther
  refine .bind .getS fun s => .ite (.pure _) (.ite ?_ (.pure _))
  split
  · exact .panicM _
  · exact .ite (.modS _) (.panicM _)

theorem NoErr.substSignal (w : World) (o : Option Nat) : NoErr (Rsh.substSignal w o) := by
  unfold Rsh.substSignal
  split
  · exact .pure _
  · refine .bind .getS fun s => .ite (.pure _) ?_
    split
    · exact .pure _
    · exact .bind (.onSigOther w _) fun _ => .panicM _
    · exact .ite (.pure _) (fun s e s' h => by cases h)

/-- A shell that goes on after a signal has not noticed it. -/
theorem substSignal_ok {w : World} {o : Option Nat} {s s' : Sh} {a : Unit} (h : substSignal w o s = (.ok a, s')) :
    s' = s := by
  unfold substSignal at h
  cases o with
  | none => cases h; rfl
  | some g =>
    simp only [run_getS_bind] at h
    by_cases hb : s.masked = true ∧ ¬ unblockedSignals.contains g = true
    · rw [if_pos hb] at h; cases h; rfl
    · rw [if_neg hb] at h
      cases hd : s.disp g with
      | ign => rw [hd] at h; cases h; rfl
      | «catch» =>
        rw [hd] at h
        obtain ⟨_, s1, _, h2⟩ := bind_ok_iff.1 h
        cases h2
      | dfl =>
        rw [hd] at h
        simp only at h
        by_cases hg : harmlessSignals.contains g = true
        · rw [if_pos hg] at h; cases h; rfl
        · rw [if_neg hg] at h; cases h

theorem evalSubshell_noErr (w : World) (rec : List AndOr → M Int) (x : Str) :
    NoErr (evalSubshell w rec x) := by
  unfold evalSubshell
  split
  · exact .pure _
  · refine .bind (.unwrapM _ _) fun cc => .bind .getS fun st => .bind (.bind (.pipeM w) fun _ => .unwrapM _ _)
      fun q => ?_
    refine .bind .getS fun st' => .bind (.unwrapM _ _) fun _ => .bind (.runChild _ _) fun q' => ?_
    refine .bind (.modS _) fun _ => .bind (.closeU _) fun _ => .bind .getS fun _ => .bind (.substSignal _ _) fun _ => ?_
    simp only
    split
    · exact .hangM
    · exact .ite .hangM (.bind (.closeU _) fun _ => .pure _)

/-- A returning substitution has closed its pipe. -/
theorem evalSubshell_expands (w : World) (rec : List AndOr → M Int) (x : Str) :
    Keeps Expands (fun _ _ => True) (evalSubshell w rec x) := by
  intro s
  have key : ∀ a s', evalSubshell w rec x s = (.ok a, s') → Expands s s' := by
    intro a s' h
    unfold evalSubshell at h
    rcases hx : substText x with _ | text
    · rw [hx] at h; cases h; exact Expands.eframe.refl s
    · rw [hx] at h
      simp only at h
      obtain ⟨cc, s1, h1, h'⟩ := bind_ok_iff.1 h
      replace h := h'; clear h'
      have e1 := (unwrapM_ok h1).2
      subst e1
      rw [run_getS_bind] at h
      obtain ⟨q, s2, h2, h⟩ := bind_ok_iff.1 h
      obtain ⟨o, s3, h3, h2⟩ := bind_ok_iff.1 h2
      by_cases hp : w.pipeOk s1.trace = true
      · obtain ⟨r, wr, hpm, hr, hw, hne, _⟩ := pipeM_ok (w := w) (s := s1) hp
        rw [hpm] at h3
        cases h3
        cases h2
        simp only [run_getS_bind] at h
        obtain ⟨_, s4, h4, h'⟩ := bind_ok_iff.1 h
        replace h := h'; clear h'
        have e4 := (unwrapM_ok h4).2
        subst e4
        obtain ⟨q, s5, h5, h'⟩ := bind_ok_iff.1 h
        replace h := h'; clear h'
        have e5 := runChild_ok h5
        subst e5
        obtain ⟨e, evs⟩ := q
        simp only [emit, run_modS_bind] at h
        rw [run_bind_ok (closeU_has (by
          show FdTable.has ((wr, _) :: _) wr = true
          rw [FdTable.has_cons]; simp))] at h
        simp only at h
        rw [FdTable.erase_cons_self (by rw [FdTable.has_cons, hw]; simp [hne])] at h
        rw [run_getS_bind] at h
        obtain ⟨_, s6, h6, h'⟩ := bind_ok_iff.1 h
        replace h := h'; clear h'
        have e6 := substSignal_ok h6
        subst e6
        have hfin : ∀ t : Str, (do
            closeU r
            pure t : M Str) { s1 with
              fds := (r, ⟨.pipeR s1.nextPipe, false⟩) :: s1.fds
              nextPipe := s1.nextPipe + 1
              trace := .subst e evs :: s1.trace } = (.ok a, s') → Expands s1 s' := by
          intro t h
          rw [run_bind_ok (closeU_has (by
            show FdTable.has ((r, _) :: _) r = true
            rw [FdTable.has_cons]; simp))] at h
          simp only [FdTable.erase_cons_self hr] at h
          cases h
          exact ⟨s1.nextPipe + 1, [.subst e evs], rfl⟩
        split at h
        · cases h
        · split at h
          · cases h
          · exact hfin _ h
      · unfold pipeM at h3
        rw [if_neg hp] at h3
        cases h3
        cases h2
  have noErr : ∀ m s', evalSubshell w rec x s ≠ (.err m, s') := fun m s' => evalSubshell_noErr w rec x s m s'
  unfold Post
  rcases h : evalSubshell w rec x s with ⟨o, s'⟩
  cases o with
  | ok a => exact key a s' h
  | err m => exact absurd h (noErr m s')
  | _ => trivial

end Rsh
