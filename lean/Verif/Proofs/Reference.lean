import Verif.Spec.Reference
import Verif.Props.Pipelines
import Verif.Props.Lists

/-!
# Lists of external commands
-/

namespace Rsh

open Spec

theorem forks_append (a b : List Event) : forks (a ++ b) = forks a + forks b := by
  induction a with
  | nil => simp [forks]
  | cons e a ih => cases e <;> simp [forks, ih] <;> omega

theorem execs_append (a b : List Event) : execs (a ++ b) = execs b ++ execs a := by
  induction a with
  | nil => simp [execs]
  | cons e a ih =>
    rw [List.cons_append]
    cases e with
    | spawn p c t => cases c <;> simp [execs, ih]
    | _ => simp [execs, ih]

theorem forks_waited (ws : List WRes) : forks (ws.map .waited) = 0 := by
  induction ws with
  | nil => rfl
  | cons r ws ih => simp [forks, ih]

theorem execs_waited (ws : List WRes) : execs (ws.map .waited) = [] := by
  induction ws with
  | nil => rfl
  | cons r ws ih => simp [execs, ih]

theorem forks_kids (kids : List Kid) : forks ((kids.map Kid.event).reverse) = kids.length := by
  induction kids with
  | nil => rfl
  | cons k ks ih => simp [forks_append, ih, Kid.event, forks]

theorem execs_kids (pids : List Nat) (imgs : List ExecImage) (h : pids.length = imgs.length) :
    execs ((List.zipWith (fun pid img => (.spawn pid (.exec img) [] : Event)) pids imgs).reverse) = imgs := by
  induction pids generalizing imgs with
  | nil => cases imgs with
    | nil => rfl
    | cons => simp at h
  | cons p ps ih =>
    cases imgs with
    | nil => simp at h
    | cons i is => simp [execs_append, ih is (by simpa using h), execs]

theorem Ran.refl (s : Sh) : Ran s s := rfl

theorem Ran.trans {a b c : Sh} (h1 : Ran a b) (h2 : Ran b c) : Ran a c := by
  unfold Ran at *
  rw [h2, h1]

/-- The commands remain what they are. -/
theorem Spec.Ext.Simple.of_same {e : Ext} {s s' : Sh} (h : e.Simple s) (hc : s'.ctx = s.ctx) (ha : s'.aliases = s.aliases) :
    e.Simple s' := by
  obtain ⟨⟨h1, h2, h3, h4, h5, h6, h7⟩, a2, a3, a4, a5⟩ := h
  refine ⟨⟨h1, h2, by rw [ha]; exact h3, by rw [hc]; exact h4, fun a m => ?_, h6, h7⟩, a2, a3, a4, a5⟩
  have : valueOf s' = valueOf s := by funext x; unfold valueOf; rw [hc]
  rw [this]
  exact h5 a m

/-- The pipelines `ps` have been run between `s` and `s'`, and nothing else; `s0` is any earlier state. -/
structure RanPipes (file : Ext → Str) (s0 s s' : Sh) (ps : List ExtPipe) : Prop where
  ran : Ran s s'
  table : s'.jc.table = []
  programs : ∃ groups, RunsPipes file s0 ps groups ∧ execs s'.trace = execs s.trace ++ groups.flatten
  forks : forks s'.trace = forks s.trace + programsIn ps

theorem Spec.RunsPipes.append {file : Ext → Str} {s : Sh} {ps qs : List ExtPipe} {gs hs : List (List ExecImage)}
    (h1 : RunsPipes file s ps gs) (h2 : RunsPipes file s qs hs) : RunsPipes file s (ps ++ qs) (gs ++ hs) := by
  induction h1 with
  | nil => exact h2
  | cons a _ ih => exact .cons a ih

theorem programsIn_append (ps qs : List ExtPipe) : programsIn (ps ++ qs) = programsIn ps + programsIn qs := by
  simp [programsIn]

theorem RanPipes.none {file : Ext → Str} {s0 s : Sh} (h : s.jc.table = []) : RanPipes file s0 s s [] :=
  ⟨rfl, h, ⟨[], .nil, by simp⟩, rfl⟩

theorem RanPipes.trans {file : Ext → Str} {s0 a b c : Sh} {ps qs : List ExtPipe} (h1 : RanPipes file s0 a b ps)
    (h2 : RanPipes file s0 b c qs) : RanPipes file s0 a c (ps ++ qs) := by
  obtain ⟨r1, t1, ⟨g1, p1, e1⟩, f1⟩ := h1
  obtain ⟨r2, t2, ⟨g2, p2, e2⟩, f2⟩ := h2
  refine ⟨r1.trans r2, t2, ⟨g1 ++ g2, p1.append p2, ?_⟩, ?_⟩
  · rw [e2, e1]; simp
  · rw [f2, f1, programsIn_append]; omega

/-- The shell and the outside world are as the reference assumes. -/
structure Setting (w : World) (pid : Nat → Nat) (file : Ext → Str) (s0 : Sh) (known : Ext → Prop) : Prop where
  res : Resources w
  pids : ∀ tr, w.fork tr = some (pid (Spec.forks tr))
  inj : ∀ i j, pid i = pid j → i = j
  fds : s0.fds = stdTable
  held : s0.held = []
  own : s0.ownGroup = false
  simple : ∀ e, known e → e.Simple s0
  runs : ∀ e, known e → ∀ tr, Runnable w s0 tr e.name (file e)

theorem reports_noEintr (pid : Nat → Nat) (code : Nat → Int) (k : Nat) (ps : List ExtPipe) :
    .eintr ∉ reports pid code k ps := by
  induction ps generalizing k with
  | nil => simp [reports]
  | cons p ps ih => simp [reports, exits, ih]

/-- One pipeline. -/
theorem play_pipe {w : World} {pid : Nat → Nat} {file : Ext → Str} {s0 : Sh} {known : Ext → Prop}
    (S : Setting w pid file s0 known) (rec : List AndOr → M Int) (code : Nat → Int) {p : ExtPipe}
    (hb : p.background = false) (hk : ∀ e ∈ p.stages, known e) {s : Sh} (hs : Ran s0 s) (ht : s.jc.table = [])
    {more : List WRes} (hw : s.waits = exits pid code (Spec.forks s.trace) p.stages.length ++ more)
    (hm : .eintr ∉ more) :
    ∃ s', evalPipeline w rec p.typed.pipeline s = (.ok (code (Spec.forks s.trace)), s') ∧
      s'.exitStatus = code (Spec.forks s.trace) ∧ s'.waits = more ∧ RanPipes file s0 s s' [p] := by
  have hs' := hs
  unfold Ran at hs'
  have hctx : s.ctx = s0.ctx := by rw [hs']
  have hal : s.aliases = s0.aliases := by rw [hs']
  have hfds : s.fds = stdTable := by rw [hs']; exact S.fds
  have hheld : s.held = [] := by rw [hs']; exact S.held
  have hown : s.ownGroup = false := by rw [hs']; exact S.own
  have henv : s.env = s0.env := by rw [hs']
  have hcwd : s.cwd = s0.cwd := by rw [hs']
  have hdisp : s.disp = s0.disp := by rw [hs']
  have hok : ∀ e ∈ p.stages, e.Simple s := fun e he => (S.simple e (hk e he)).of_same hctx hal
  have hpl : p.typed.pipeline = .mk false (p.stages.map Ext.command) false := by
    have e : (p.stages.map Ext.tcmd).map (fun c => Command.simple c.command) = p.stages.map Ext.command := by
      rw [List.map_map]
      exact List.map_congr_left fun e he => Ext.tcmd_command (hok e he)
    rw [← e]
    unfold TPipe.pipeline ExtPipe.typed
    simp only [hb]
    rfl
  have hexp := evalCommands_ext w rec (es := p.stages) (s := { s with masked := true })
    fun e he => ((hok e he).of_same (s' := { s with masked := true }) rfl rfl).ok
  obtain ⟨kid, kids, hkids, -, hrun⟩ := foreground_run S.res rec (.mk false (p.stages.map Ext.command) false) rfl
    (fun c hc => by
      obtain ⟨e, he, rfl⟩ := List.mem_map.1 hc
      exact Ext.plain_command (hok e he).ok) (by simp [Pipeline.seq, ExtPipe.stages]) hexp
    (fun q hq => by
      obtain ⟨e, he, rfl⟩ := List.mem_map.1 hq
      exact (hok e he).ok.function) (by rw [hfds]; exact stdTable_std) ht hheld
  have hlen : (kid :: kids).length = p.stages.length := by rw [hkids.length, List.length_map]
  have hpid : ∀ (i : Nat) q, (kid :: kids)[i]? = some q → q.1 = pid (Spec.forks s.trace + i) := by
    intro i q hq
    have h1 := hkids.pid i q hq
    rw [S.pids, forks_append, forks_kids, List.length_take] at h1
    have := (List.getElem?_eq_some_iff.1 hq).1
    rw [Nat.min_eq_left (by omega)] at h1
    have h2 := (Option.some.inj h1).symm
    rw [h2]
    congr 1
    show i + Spec.forks s.trace = _
    omega
  have hkid : kid.1 = pid (Spec.forks s.trace) := hpid 0 kid rfl
  obtain ⟨m, hmlen⟩ : ∃ m, p.stages.length = m + 1 := ⟨p.rest.length, rfl⟩
  obtain ⟨s', r1, r2, -, r4, r5, ⟨ws, r6⟩, -, r8⟩ := hrun 0 (code (Spec.forks s.trace))
    ((List.range m).map fun i => ((pid (Spec.forks s.trace + (i + 1)) : Int), code (Spec.forks s.trace + (i + 1))))
    (.err :: more)
    (by
      rw [hw, hmlen, hkid]
      unfold exits
      rw [List.range_succ_eq_map]
      simp [Function.comp_def])
    (by simpa using hm)
    (by
      simp only [List.map_map, List.mem_map, List.mem_range, Function.comp_apply, not_exists, not_and]
      intro i _ e
      rw [hkid] at e
      have := S.inj _ _ (Int.ofNat.inj e)
      omega)
    (by
      intro q hq _
      obtain ⟨i, hi, e⟩ := List.mem_iff_getElem.1 hq
      have h1 := hpid (i + 1) q (by rw [List.getElem?_cons_succ, List.getElem?_eq_getElem hi, e])
      simp only [List.map_map, List.mem_map, List.mem_range, Function.comp_apply]
      refine ⟨i, ?_, by rw [h1]⟩
      rw [List.length_cons] at hlen
      omega)
  obtain ⟨imgs, i1, ⟨pids, i2, i3⟩, i4⟩ := Kids.images (file := file) hkids
    (fun e he => (hok e he).of_same rfl rfl) (by show Uniq s.fds; rw [hfds]; exact uniq_stdTable)
    (fun e he tr => by
      obtain ⟨a1, a2, a3⟩ := S.runs e (hk e he) (tr ++ s.trace)
      refine ⟨?_, a2, a3⟩
      have : pathOf { s with masked := true } = pathOf s0 := by unfold pathOf; rw [← hctx]
      rw [this]
      exact a1)
  have hget : ∀ (i : Nat) img, imgs[i]? = some img → ∃ e, p.stages[i]? = some e := by
    intro i img hi
    have := (List.getElem?_eq_some_iff.1 hi).1
    exact ⟨_, List.getElem?_eq_getElem (by omega)⟩
  refine ⟨s', by rw [hpl]; exact r1, r2, r8 more rfl, r5, r4, ⟨[imgs], .cons ⟨?_, ?_, ?_⟩ .nil, ?_⟩, ?_⟩
  · refine List.ext_getElem? fun i => ?_
    rw [List.getElem?_map, List.getElem?_map]
    rcases hi : imgs[i]? with _ | img
    · rw [List.getElem?_eq_none_iff] at hi
      rw [List.getElem?_eq_none_iff.2 (by omega)]
      rfl
    · obtain ⟨e, he⟩ := hget i img hi
      obtain ⟨a1, a2, -⟩ := i4 i e img he hi
      rw [he]
      simp [a1, a2]
  · refine plumbed_of (np := s.nextPipe) fun i img hi fd => ?_
    obtain ⟨e, he⟩ := hget i img hi
    rw [(i4 i e img he hi).2.2.2.2.2 fd, i1]
    show (stageFd s.fds (inPipe s.nextPipe i) (outPipe s.nextPipe i _) fd).filter _ = _
    rw [hfds, stdTable_filter]
  · intro img him
    obtain ⟨i, hi, e⟩ := List.mem_iff_getElem.1 him
    have hi' : imgs[i]? = some img := by rw [List.getElem?_eq_getElem hi, e]
    obtain ⟨e, he⟩ := hget i img hi'
    obtain ⟨-, -, a3, a4, a5, -⟩ := i4 i e img he hi'
    refine ⟨a3.trans henv, a5.trans hown, a4.1, a4.2.trans hcwd, fun g => ?_⟩
    rw [← hdisp]
    exact a4.3 g
  · rw [r6, i3, kid_events, execs_append, execs_waited]
    show execs (Event.waited _ :: _) ++ [] = _
    simp only [execs, List.append_nil, execs_append, List.replicate_zero, List.nil_append, List.flatten_cons, List.flatten_nil]
    rw [execs_kids _ _ (by rw [i2, i1])]
  · rw [r6, forks_append, forks_waited]
    have := forks_kids (kid :: kids)
    simp only [Spec.forks, List.replicate_zero, List.nil_append, forks_append, programsIn, List.map_cons,
      List.map_nil, List.sum_cons, List.sum_nil] at this ⊢
    rw [this, hlen]
    omega

/-- The pipelines of a chain are known. -/
def AllKnown (known : Ext → Prop) (ps : List ExtPipe) : Prop :=
  ∀ p ∈ ps, p.background = false ∧ ∀ e ∈ p.stages, known e

theorem reports_append (pid : Nat → Nat) (code : Nat → Int) (k : Nat) (ps qs : List ExtPipe) :
    reports pid code k (ps ++ qs) = reports pid code k ps ++ reports pid code (k + programsIn ps) qs := by
  induction ps generalizing k with
  | nil => rfl
  | cons p ps ih =>
    have : k + programsIn (p :: ps) = k + p.stages.length + programsIn ps := by
      simp [programsIn]; omega
    rw [List.cons_append, reports, ih, reports, List.append_assoc, this]

/-- The rest of a chain. -/
theorem play_rest {w : World} {pid : Nat → Nat} {file : Ext → Str} {s0 : Sh} {known : Ext → Prop}
    (S : Setting w pid file s0 known) (rec : List AndOr → M Int) (code : Nat → Int) {more : List WRes}
    (hm : .eintr ∉ more) (rs : List (CondExec × ExtPipe)) :
    ∀ {t : AndOr} {s s1 : Sh} {st : Int}, evalAndOr w rec t s = (.ok st, s1) → s1.exitStatus = st →
      AllKnown known (rs.map Prod.snd) → Ran s0 s1 → s1.jc.table = [] →
      s1.waits = reports pid code (forks s1.trace) (playRest code (forks s1.trace) st rs).ran ++ more →
      ∃ s', evalAndOr w rec ((rs.map fun l => (l.1, l.2.typed)).foldl
          (fun t l => .mk (some t) (some l.1) l.2.pipeline) t) s =
          (.ok (playRest code (forks s1.trace) st rs).status, s') ∧
        s'.exitStatus = (playRest code (forks s1.trace) st rs).status ∧ s'.waits = more ∧
        RanPipes file s0 s1 s' (playRest code (forks s1.trace) st rs).ran := by
  induction rs with
  | nil =>
    intro t s s1 st he hst _ _ ht hw
    exact ⟨s1, he, hst, hw, RanPipes.none ht⟩
  | cons r rs ih =>
    intro t s s1 st he hst hk hran ht hw
    obtain ⟨op, p⟩ := r
    have hkrs : AllKnown known (rs.map Prod.snd) := fun q hq => hk q (List.mem_cons_of_mem _ hq)
    have hkp := hk p List.mem_cons_self
    have skip : evalAndOr w rec (.mk (some t) (some op) p.typed.pipeline) s = (.ok st, s1) →
        playRest code (forks s1.trace) st ((op, p) :: rs) = playRest code (forks s1.trace) st rs →
        ∃ s', evalAndOr w rec ((((op, p) :: rs).map fun l => (l.1, l.2.typed)).foldl
            (fun t l => .mk (some t) (some l.1) l.2.pipeline) t) s =
            (.ok (playRest code (forks s1.trace) st ((op, p) :: rs)).status, s') ∧
          s'.exitStatus = (playRest code (forks s1.trace) st ((op, p) :: rs)).status ∧ s'.waits = more ∧
          RanPipes file s0 s1 s' (playRest code (forks s1.trace) st ((op, p) :: rs)).ran := by
      intro e1 e2
      rw [e2] at hw ⊢
      exact ih e1 hst hkrs hran ht hw
    have next : evalAndOr w rec (.mk (some t) (some op) p.typed.pipeline) s = evalPipeline w rec p.typed.pipeline s1 →
        playRest code (forks s1.trace) st ((op, p) :: rs) =
          ⟨p :: (playRest code (forks s1.trace + p.stages.length) (code (forks s1.trace)) rs).ran,
            (playRest code (forks s1.trace + p.stages.length) (code (forks s1.trace)) rs).status⟩ →
        ∃ s', evalAndOr w rec ((((op, p) :: rs).map fun l => (l.1, l.2.typed)).foldl
            (fun t l => .mk (some t) (some l.1) l.2.pipeline) t) s =
            (.ok (playRest code (forks s1.trace) st ((op, p) :: rs)).status, s') ∧
          s'.exitStatus = (playRest code (forks s1.trace) st ((op, p) :: rs)).status ∧ s'.waits = more ∧
          RanPipes file s0 s1 s' (playRest code (forks s1.trace) st ((op, p) :: rs)).ran := by
      intro e1 e2
      rw [e2] at hw ⊢
      simp only [reports, List.append_assoc] at hw
      obtain ⟨s2, a1, a2, a3, a4⟩ := play_pipe S rec code hkp.1 hkp.2 hran ht hw
        (by rw [List.mem_append]; exact fun h => h.elim (reports_noEintr _ _ _ _) hm)
      have hf : forks s2.trace = forks s1.trace + p.stages.length := by
        rw [a4.forks]; simp [programsIn]
      obtain ⟨s', b1, b2, b3, b4⟩ := ih (e1.trans a1) a2 hkrs (hran.trans a4.ran) a4.table (by rw [a3, hf])
      rw [hf] at b1 b2 b4
      exact ⟨s', b1, b2, b3, a4.trans b4⟩
    cases op with
    | and =>
      by_cases h0 : st = 0
      · refine next ?_ (by simp [playRest, h0])
        rw [evalAndOr, run_bind_ok he]
        simp [h0]
      · refine skip ?_ (by simp [playRest, h0])
        rw [evalAndOr, run_bind_ok he]
        simp [h0]
    | or =>
      by_cases h0 : st = 0
      · refine skip ?_ (by simp [playRest, h0])
        rw [evalAndOr, run_bind_ok he]
        simp [h0]
      · refine next ?_ (by simp [playRest, h0])
        rw [evalAndOr, run_bind_ok he]
        simp [h0]

/-- A chain. -/
theorem play_chain {w : World} {pid : Nat → Nat} {file : Ext → Str} {s0 : Sh} {known : Ext → Prop}
    (S : Setting w pid file s0 known) (rec : List AndOr → M Int) (code : Nat → Int) {more : List WRes}
    (hm : .eintr ∉ more) {c : ExtChain} (hk : AllKnown known c.pipes) {s : Sh} (hs : Ran s0 s) (ht : s.jc.table = [])
    (hw : s.waits = reports pid code (forks s.trace) (playChain code (forks s.trace) c).ran ++ more) :
    ∃ s', evalAndOr w rec c.typed.tree s = (.ok (playChain code (forks s.trace) c).status, s') ∧
      s'.exitStatus = (playChain code (forks s.trace) c).status ∧ s'.waits = more ∧
      RanPipes file s0 s s' (playChain code (forks s.trace) c).ran := by
  have hkp := hk c.first List.mem_cons_self
  unfold playChain at hw ⊢
  simp only [reports, List.append_assoc] at hw ⊢
  obtain ⟨s2, a1, a2, a3, a4⟩ := play_pipe S rec code hkp.1 hkp.2 hs ht hw
    (by rw [List.mem_append]; exact fun h => h.elim (reports_noEintr _ _ _ _) hm)
  have hf : forks s2.trace = forks s.trace + c.first.stages.length := by
    rw [a4.forks]; simp [programsIn]
  have e1 : evalAndOr w rec (.mk none none c.first.typed.pipeline) s = (.ok (code (forks s.trace)), s2) := by
    rw [evalAndOr]
    exact a1
  obtain ⟨s', b1, b2, b3, b4⟩ := play_rest S rec code hm c.rest e1 a2
    (fun q hq => hk q (List.mem_cons_of_mem _ hq)) (hs.trans a4.ran) a4.table (by rw [a3, hf])
  rw [hf] at b1 b2 b4
  exact ⟨s', b1, b2, b3, a4.trans b4⟩

/-- Chains one after the other. -/
theorem play_chains {w : World} {pid : Nat → Nat} {file : Ext → Str} {s0 : Sh} {known : Ext → Prop}
    (S : Setting w pid file s0 known) (rec : List AndOr → M Int) (code : Nat → Int) {more : List WRes}
    (hm : .eintr ∉ more) (cs : List ExtChain) :
    ∀ {s : Sh} {st0 st : Int}, (∀ c ∈ cs, AllKnown known c.pipes) → Ran s0 s → s.jc.table = [] → s.exitStatus = st →
      s.waits = reports pid code (forks s.trace) (play code (forks s.trace) st cs).ran ++ more →
      ∃ s' r, evalListFrom w rec st0 (cs.map fun c => c.typed.tree) s = (.ok r, s') ∧
        s'.exitStatus = (play code (forks s.trace) st cs).status ∧ s'.waits = more ∧
        RanPipes file s0 s s' (play code (forks s.trace) st cs).ran := by
  induction cs with
  | nil =>
    intro s st0 st _ _ ht hst hw
    exact ⟨s, st0, rfl, hst, hw, RanPipes.none ht⟩
  | cons c cs ih =>
    intro s st0 st hk hs ht hst hw
    unfold play at hw ⊢
    simp only [reports_append, List.append_assoc] at hw ⊢
    obtain ⟨s2, a1, a2, a3, a4⟩ := play_chain S rec code
      (by rw [List.mem_append]; exact fun h => h.elim (reports_noEintr _ _ _ _) hm) (hk c List.mem_cons_self) hs ht hw
    have hf : forks s2.trace = forks s.trace + programsIn (playChain code (forks s.trace) c).ran := a4.forks
    obtain ⟨s', r, b1, b2, b3, b4⟩ := ih (s := s2) (st0 := (playChain code (forks s.trace) c).status)
      (st := (playChain code (forks s.trace) c).status) (fun c' h => hk c' (List.mem_cons_of_mem _ h))
      (hs.trans a4.ran) a4.table a2 (by rw [a3, hf])
    rw [hf] at b2 b4
    refine ⟨s', r, ?_, b2, b3, a4.trans b4⟩
    rw [List.map_cons, evalListFrom, run_bind_ok a1]
    exact b1

/-- What is run does not depend on how the chains are grouped into lines. -/
theorem play_append (code : Nat → Int) (cs cs' : List ExtChain) : ∀ (k : Nat) (st : Int),
    play code k st (cs ++ cs') = ⟨(play code k st cs).ran ++
        (play code (k + programsIn (play code k st cs).ran) (play code k st cs).status cs').ran,
      (play code (k + programsIn (play code k st cs).ran) (play code k st cs).status cs').status⟩ := by
  induction cs with
  | nil => intro k st; rfl
  | cons c cs ih =>
    intro k st
    simp only [List.cons_append, play, ih, programsIn_append, List.append_assoc, Nat.add_assoc]

end Rsh
