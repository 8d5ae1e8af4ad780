import Verif.Proofs.Refused
import Verif.Proofs.Leaks
import Verif.Props.Pipelines
import Verif.Props.Substitutions

/-!
# Properties C136 and C137: pipes and processes the system refuses
-/

namespace Rsh

open Spec

/-! ## A pipeline, whatever the system refuses -/

theorem get_stageFds_one {t : FdTable} {src : Option (Int × Nat)} (h : StageOk t src none) :
    (stageFds t src none).get 1 = t.get 1 := by
  cases src with
  | none => rfl
  | some p =>
    have := (h.srcOk p.1 p.2 rfl).1
    unfold stageFds FdTable.get
    simp only [List.nil_append, List.cons_append, List.lookup]
    rw [show ((1 : Int) == p.1) = false by simp; omega]

/-- A typed pipeline of external commands up to the end of the fork loop. -/
theorem extPipe_any (w : World) (n : Nat) (s : Sh) (p : ExtPipe) (hok : ∀ e ∈ p.stages, e.Simple s)
    (hstd : StdFds s.fds) :
    ∃ slots, Slots w (evalFuel w n) p.background { s with masked := true } (p.stages.map Ext.proc) slots ∧
      ((slots.length = p.stages.length ∧
          evalPipeline w (evalFuel w n) (.mk false (p.stages.map Ext.command) p.background) s = (do
            afterFork w p.background s.jc.nextId p.stages.length
            interruptsOn
            let s ← getS
            pure s.exitStatus : M Int) (reached { s with masked := true } p.background (p.stages.map Ext.proc) slots
              (p.stages.length - 1) s.fds)) ∨
       (slots.length + 1 < p.stages.length ∧ w.pipeOk (slotTrace slots ++ s.trace) = false ∧
        ∃ src, src.map Prod.snd = inPipe s.nextPipe slots.length ∧ StageOk s.fds src none ∧
          evalPipeline w (evalFuel w n) (.mk false (p.stages.map Ext.command) p.background) s =
            (.err (cs!"Failed to create pipe"),
            reached { s with masked := true } p.background (p.stages.map Ext.proc) slots slots.length
              (stageFds s.fds src none)))) := by
  have hexp := evalCommands_ext w (evalFuel w n) (es := p.stages) (s := { s with masked := true })
    fun e he => ⟨(hok e he).ok.plain, (hok e he).ok.external, (hok e he).ok.alias, (hok e he).ok.function,
      (hok e he).ok.args, (hok e he).ok.nul, (hok e he).ok.assign⟩
  obtain ⟨slots, h1, h2⟩ := pipeline_any (evalFuel w n) (.mk false (p.stages.map Ext.command) p.background) hexp
    (by simp [ExtPipe.stages]) (fun q hq => by
      obtain ⟨e, he, rfl⟩ := List.mem_map.1 hq
      exact (hok e he).ok.function) hstd
  rw [List.length_map] at h2
  exact ⟨slots, h1, h2⟩

theorem Ext.Simple.masked {e : Ext} {s : Sh} (h : e.Simple s) : e.Simple { s with masked := true } :=
  ⟨⟨h.ok.plain, h.ok.external, h.ok.alias, h.ok.function, h.ok.args, h.ok.nul, h.ok.assign⟩, h.typed, h.args, h.pre,
    h.redirs⟩

/-- The programs of those members that were created. -/
theorem Slots.images {w : World} {rec : List AndOr → M Int} {b : Bool} {s : Sh} {es : List Ext} {slots : List Slot}
    (h : Slots w rec b s (es.map Ext.proc) slots) (hs : ∀ e ∈ es, e.Simple s) (hu : Uniq s.fds) {file : Ext → Str}
    (hrun : ∀ e ∈ es, ∀ tr, Runnable w s (tr ++ s.trace) e.name (file e)) (i : Nat) (e : Ext) (kid : Kid)
    (he : es[i]? = some e) (hk : slots[i]? = some (some kid)) :
    ∃ img : ExecImage, kid.2 = (.exec img, []) ∧ img.path = file e ∧ img.argv = e.argv ∧ img.env = s.env := by
  have hm : e ∈ es := List.mem_of_getElem? he
  have hq : (es.map Ext.proc)[i]? = some e.proc := by rw [List.getElem?_map, he]; rfl
  obtain ⟨img, h1, h2, h3, h4, -⟩ := KidOk.image (h.kid i _ kid hq hk) (hs e hm).ok.function (hs e hm).pre (hs e hm).redirs
    hu (fun tr => ⟨(hrun e hm tr).path, (hrun e hm tr).exec, (hrun e hm tr).nul⟩)
  exact ⟨img, h1, h2, h3, h4⟩

/-! ## A substitution that ends the shell -/

theorem crash_bind {m : M α} {s : Sh} {k : PanicKind} (h : (m s).1 = .panic k) (f : α → M β) : ((m >>= f) s).1 = .panic k := by
  rw [run_bind]
  rcases hm : m s with ⟨o, s'⟩
  rw [hm] at h
  obtain rfl : o = .panic k := h
  rfl

theorem cutLoop_crashes (w : World) (rec : List AndOr → M Int) {k : PanicKind} : ∀ (pre rest : Str) {n : Nat} {s : Sh},
    (∀ c ∈ pre, c ≠ '$' ∧ c ≠ '`') → (cutLoop w rec n rest s).1 = .panic k →
    (cutLoop w rec (pre.length + n) (pre ++ rest) s).1 = .panic k := by
  intro pre
  induction pre with
  | nil => intro rest n s _ h; simpa using h
  | cons c pre ih =>
    intro rest n s hc h
    rw [List.length_cons, show pre.length + 1 + n = (pre.length + n) + 1 by omega, List.cons_append, cutLoop,
      if_neg (fun e => e.elim (hc c List.mem_cons_self).1 (hc c List.mem_cons_self).2)]
    exact crash_bind (ih rest (fun d hd => hc d (List.mem_cons_of_mem _ hd)) h) _

/-- The word with the substitution, when the substitution ends the shell. -/
theorem evalDoubleQuotes_crash (w : World) (rec : List AndOr → M Int) {k : PanicKind} {tick : Bool} {pre t post : Str} {s : Sh}
    (hpre : ∀ c ∈ pre, c ≠ '$' ∧ c ≠ '`') (ht : substEnd tick ∉ t)
    (h : (evalSubshell w rec (substitution tick t) s).1 = .panic k) :
    (evalDoubleQuotes w rec ('"' :: ((pre ++ (substitution tick t ++ post)) ++ ['"'])) s).1 = .panic k := by
  unfold evalDoubleQuotes
  obtain ⟨c, r, hq, hc, h3⟩ := createSubshell_subst tick ht post
  rw [subst_found]
  simp only [Bool.false_eq_true, if_false]
  refine crash_bind ?_ _
  unfold cutQuotes
  rw [List.tail_cons, List.dropLast_concat]
  refine (congrArg Prod.fst (congrFun (if_pos rfl) s)).trans ?_
  rw [hq, show (pre ++ (c :: r ++ post)).length + 1 =
    pre.length + ((r.length + post.length + 1) + 1) by simp; omega, List.cons_append]
  refine cutLoop_crashes w rec pre _ hpre ?_
  rw [cutLoop, if_pos hc]
  rw [h3, unwrapM_some, run_pure_bind]
  exact crash_bind h _

theorem evalSuffixWords_crash (w : World) (rec : List AndOr → M Int) {k : PanicKind} {m : CtxMgr} {ts vs : List Str}
    (h : Arrive (fun n => (m.getVar n).map Var.value) ts vs) {t : Str} {b : List Str} {s : Sh}
    (hb : (evalDoubleQuotes w rec ('"' :: t) s).1 = .panic k) :
    (evalSuffixWords w rec (ts.map (expandWord m) ++ ('"' :: t) :: b) s).1 = .panic k := by
  induction h with
  | nil =>
    show (evalSuffixWords w rec (('"' :: t) :: b) s).1 = .panic k
    unfold evalSuffixWords
    rw [if_pos (by rfl)]
    exact crash_bind hb _
  | cons h _ ih =>
    rw [List.map_cons, List.cons_append]
    rw [← expandWord_eq] at h
    rw [evalSuffixWords_cons w rec h]
    exact crash_bind ih _

/-- The rest of the line, when the substitution ends the shell. -/
theorem quoted_crash (w : World) {k : PanicKind} (n : Nat) (s : Sh) (l : QuotedLine) (hok : l.Ok s)
    (hsub : (evalSubshell w (evalFuel w (n + 1)) (substitution l.tick l.cmd) { s with masked := true }).1 = .panic k) :
    (interactiveLine w (n + 2) l.text s).1 = .panic k := by
  have hdq := evalDoubleQuotes_crash w (evalFuel w (n + 1)) (post := l.post)
    (fun c hc => (hok.around c (List.mem_append_left _ hc)).2) hok.text.2 hsub
  have hsuf : (evalSuffixWords w (evalFuel w (n + 1)) ((l.words.map Typed.text).map (expandWord s.ctx))
      { s with masked := true }).1 = .panic k := by
    unfold QuotedLine.words
    rw [List.map_append, List.map_append, List.map_cons, List.map_cons, List.map_map (l := l.before)]
    have e1 : expandWord s.ctx l.word.text = l.word.text := expandWord_of_head (by simp [QuotedLine.word, Typed.text])
    rw [e1]
    exact evalSuffixWords_crash w _ (m := s.ctx)
      (arrive_all l.before fun a ha => (hok.args a (List.mem_append_left _ ha)).2.1) hdq
  have hne : l.words.map Typed.text ≠ [] := by unfold QuotedLine.words; simp
  have hex : (expandCommand w (evalFuel w (n + 1)) ⟨none, l.name, some ⟨[], l.words.map Typed.text⟩⟩
      { s with masked := true }).1 = .panic k := by
    unfold expandCommand
    rw [run_bind_ok (aliasLookup_none hok.alias),
      run_bind_ok (expandVars_run (by simp) (plainWord_head hok.name.1 (by decide)) _)]
    unfold evalWords
    rw [if_neg hok.name.1.1]
    have e1 : ¬ startsWith ['\''] l.name = true := fun e =>
      plainWord_head hok.name.1 (c := '\'') (by decide) ((startsWith_single _ _).1 e)
    simp only [e1, Bool.false_eq_true, if_false]
    rw [run_pure_bind, splitQts_plain hok.name.1, unwrapM_some, run_pure_bind,
      run_bind_ok (evalNameWords_one w _ (plainWord_head hok.name.1 (by decide)) _)]
    simp only [Option.map_some]
    rw [if_neg (by simpa using hne)]
    exact crash_bind hsuf _
  have hpl : (evalPipeline w (evalFuel w (n + 1)) (.mk false [.simple ⟨none, l.name,
      some ⟨[], l.words.map Typed.text⟩⟩] false) s).1 = .panic k := by
    unfold evalPipeline
    rw [run_bind_ok (show interruptsOff s = (.ok (), { s with masked := true }) from rfl)]
    refine crash_bind ?_ _
    unfold Pipeline.seq evalCommands evalCommand evalSimple
    simp only
    rw [if_neg (by rw [isBuiltin_iff]; exact hok.external)]
    exact crash_bind (crash_bind hex _) _
  have htop : (evalTop w (n + 2) (some [.mk none none (.mk false [.simple ⟨none, l.name,
      some ⟨[], l.words.map Typed.text⟩⟩] false)]) s).1 = .panic k := by
    show (evalListFrom w (evalFuel w (n + 1)) (-1) [.mk none none _] s).1 = _
    unfold evalListFrom evalAndOr
    exact crash_bind hpl _
  have hin : l.text ≠ [] := by
    have := hok.name.1.1
    simp [QuotedLine.text, line, this]
  unfold interactiveLine
  rw [if_neg hin, QuotedLine.parse hok]
  simp only
  rw [run_bind, run_tryE]
  rcases hr : evalTop w (n + 2) (some [.mk none none (.mk false [.simple ⟨none, l.name,
      some ⟨[], l.words.map Typed.text⟩⟩] false)]) s with ⟨o, s'⟩
  rw [hr] at htop
  obtain rfl : o = .panic k := htop
  rfl

/-! ## C136 -/

theorem slotTrace_length (l : List Slot) : (slotTrace l).length = l.length := by simp [slotTrace]

theorem interactiveLine_err {w : World} {n : Nat} {input : Str} {pl : Pipeline}
    (h : parse input = some (some [.mk none none pl])) {s s1 : Sh} (hne : input ≠ []) {e : Str}
    (he : evalPipeline w (evalFuel w n) pl s = (.err e, s1)) :
    interactiveLine w (n + 1) input s = printlnM e s1 := by
  have e1 : (evalTop w (n + 1) (some [.mk none none pl]) : M Int) s = (.err e, s1) := by
    show evalListFrom w (evalFuel w n) (-1) [.mk none none pl] s = _
    unfold evalListFrom evalAndOr
    rw [run_bind_err he]
  unfold interactiveLine
  rw [if_neg hne, h]
  simp only
  rw [run_bind_ok (run_tryE_err e1)]

/-- **C136**, the part that holds: when the system refuses pipe number `i` of a pipeline, the shell prints an error
message and comes back to the prompt.  Exactly the `i` commands in front of it have been started (those of them for
which there was a process), the exit status stays, and nothing has been waited for.
But the job stays in the table as a running job, with the pid -1 for every command that was not started; the signals
stay blocked; and the reading end of the pipe before, if any, stays open. -/
theorem C136_refused_partial (w : World) (n : Nat) (s : Sh) (hp : AtPrompt w s)
    (p : ExtPipe) (hok : ∀ e ∈ p.stages, e.Simple s) (file : Ext → Str)
    (hrun : ∀ e ∈ p.stages, ∀ tr, Runnable w s (tr ++ s.trace) e.name (file e))
    (i : Nat) (hi : i + 1 < p.stages.length) (hpipe : ∀ tr, w.pipeOk (tr ++ s.trace) = decide (tr.length < i)) :
    ∃ (slots : List Slot) (s' : Sh) (job : Job),
      interactiveLine w (n + 1) p.text s = (.ok (), s') ∧ slots.length = i ∧
      (∀ (k : Nat) slot, slots[k]? = some slot →
        w.fork (((slots.take k).map Slot.event).reverse ++ s.trace) = slot.map Prod.fst) ∧
      (∀ (k : Nat) e kid, p.stages[k]? = some e → slots[k]? = some (some kid) →
        ∃ img : ExecImage, kid.2 = (.exec img, []) ∧ img.path = file e ∧ img.argv = e.argv ∧ img.env = s.env) ∧
      s'.trace = .print (some (.orig 1)) (cs!"Failed to create pipe\n") ::
        ((slots.map Slot.event).reverse ++ s.trace) ∧
      s'.exitStatus = s.exitStatus ∧ s'.waits = s.waits ∧ s'.ctx = s.ctx ∧ s'.aliases = s.aliases ∧ s'.env = s.env ∧
      s'.cwd = s.cwd ∧ s'.masked = true ∧
      s'.jc.table = s.jc.table ++ [(s.jc.nextId, job)] ∧ job.state = .running ∧ job.background = p.background ∧
      job.processes.map Process.cmd = p.stages.map Ext.name ∧
      job.processes.map Process.pid = slots.map Slot.pid ++ List.replicate (p.stages.length - i) (-1) ∧
      (i = 0 → s'.fds = s.fds) ∧
      (0 < i → ∃ fd, s.fds.get fd = none ∧ s'.fds = (fd, ⟨.pipeR (s.nextPipe + (i - 1)), false⟩) :: s.fds) := by
  obtain ⟨slots, hs, hend⟩ := extPipe_any w n s p hok (AtPrompt_std hp)
  have hlen : ¬ i < slots.length := by
    intro h
    have := hs.pipe i h (by rw [List.length_map]; exact hi)
    rw [show ({ s with masked := true } : Sh).trace = s.trace from rfl, hpipe, slotTrace_length, List.length_take] at this
    simp only [decide_eq_true_eq] at this
    omega
  rcases hend with ⟨h1, -⟩ | ⟨h1, h2, src, h3, h4, h5⟩
  · omega
  rw [hpipe, slotTrace_length] at h2
  simp only [decide_eq_false_iff_not] at h2
  obtain rfl : slots.length = i := by omega
  have hsmall := ((tableInv w).atPrompt hp).small
  have hle : slots.length ≤ ((p.stages.map Ext.proc).map Prod.fst).length := by
    rw [List.length_map, List.length_map]; omega
  have htab := slots_table (jc := s.jc) hsmall ((p.stages.map Ext.proc).map Prod.fst) p.background slots hle
  have hout := interactiveLine_err (ExtPipe.parse hok) (ExtPipe.text_ne hok) h5
  refine ⟨slots, _, _, hout, rfl, hs.fork, ?_, ?_, rfl, rfl, rfl, rfl, rfl, rfl, rfl, htab, rfl, rfl, ?_, ?_, ?_, ?_⟩
  · intro k e kid he hk
    have hu := AtPrompt_uniq hp
    refine hs.images (fun e he => Ext.Simple.masked (hok e he)) hu (file := file) (fun e he tr => ?_) k e kid he hk
    exact ⟨(hrun e he tr).path, (hrun e he tr).exec, (hrun e he tr).nul⟩
  · show Event.print (((stageFds s.fds src none).get 1).map FdE.chan) _ :: _ = _
    rw [get_stageFds_one h4, AtPrompt_one hp]
    rfl
  · rw [withSlots_cmds hle, List.map_map, List.map_map]
    rfl
  · rw [withSlots_pids (fun q hq => ?_) hle, List.length_map, List.length_map]
    simp only [List.map_map, List.mem_map] at hq
    obtain ⟨e, -, rfl⟩ := hq
    rfl
  · intro h0
    unfold inPipe at h3
    rw [if_pos h0] at h3
    cases src with
    | none => rfl
    | some q => cases h3
  · intro hpos
    unfold inPipe at h3
    rw [if_neg (by omega)] at h3
    cases src with
    | none => cases h3
    | some q =>
      obtain ⟨fd, k⟩ := q
      have hk : k = s.nextPipe + (slots.length - 1) := by simpa using h3
      subst hk
      refine ⟨fd, ?_, rfl⟩
      have := (h4.srcOk fd _ rfl).2
      unfold FdTable.has at this
      simpa using this

/-- The demo world, but pipes and processes are there only up to some points. -/
def scarce (pipes forks : Option Nat) : World :=
  { demoWorld [] with
    pipeOk := fun tr => pipes.all fun n => decide (tr.length < n)
    fork := fun tr => if forks.all fun n => decide (tr.length < n) then some (100 + tr.length) else none }

/-- A prompt in it. -/
def scarcePrompt (pipes forks : Option Nat) (waits : List WRes := []) : Sh :=
  ((do startUp (scarce pipes forks) 5 []; session (scarce pipes forks) [] : M Unit)
    (initSh false 1 2 (cs!"/") [(cs!"PATH", cs!"/bin"), (cs!"HOME", cs!"/home")] waits)).2

theorem scarce_prompt {pipes forks : Option Nat} {waits : List WRes}
    (h : outcome ((do startUp (scarce pipes forks) 5 []; session (scarce pipes forks) [] : M Unit)
      (initSh false 1 2 (cs!"/") [(cs!"PATH", cs!"/bin"), (cs!"HOME", cs!"/home")] waits)).1 = .ok) :
    AtPrompt (scarce pipes forks) (scarcePrompt pipes forks waits) := by
  unfold scarcePrompt
  obtain ⟨a, ha⟩ := outcome_ok h
  obtain ⟨b, s1, h1, h2⟩ := bind_ok_iff.1 (Prod.ext ha rfl)
  exact session_atPrompt (.start h1) [] h2

/-- `ls -l | grep x | wc`, and the second pipe is refused. -/
example : ∃ (slots : List Slot) (s' : Sh), interactiveLine (scarce (some 3) none) (19 + 1) (demoPipe false).text (scarcePrompt (some 3) none) = (.ok (), s') ∧
    slots.length = 1 ∧ s'.masked = true := by
  have htr : (scarcePrompt (some 3) none).trace.length = 2 := by decide +kernel
  obtain ⟨slots, s', -, h1, h2, -, -, -, -, -, -, -, -, -, h3, -⟩ := C136_refused_partial (scarce (some 3) none) 19 (scarcePrompt (some 3) none)
    (scarce_prompt (by decide +kernel)) (demoPipe false)
    (demoPipe_ok false _ (by decide +kernel) (by decide +kernel) (by decide +kernel)) (fun e => cs!"/bin/" ++ e.name)
    (fun e he tr => by
      have := demoPipe_runnable false (s := scarcePrompt (some 3) none) (by decide +kernel) e he (tr ++ (scarcePrompt (some 3) none).trace)
      exact ⟨this.path, this.exec, this.nul⟩) 1 (by decide)
    (fun tr => by
      show decide ((tr ++ (scarcePrompt (some 3) none).trace).length < 3) = _
      rw [List.length_append, htr]
      exact decide_eq_decide.2 (by omega))
  exact ⟨slots, s', h1, h2, h3⟩

/-- **C136**, descriptors at every prompt: whatever pipes the system has refused, and whenever, the three standard
descriptors of the shell are its own, and anything else that is open is the reading end of a pipe. -/
theorem C136_open (w : World) (s : Sh) (hp : AtPrompt w s) :
    (∀ i : Nat, i < 3 → s.fds.get i = some ⟨.orig i, false⟩) ∧
    ∀ fd e, s.fds.get fd = some e → fd = 0 ∨ fd = 1 ∨ fd = 2 ∨ 3 ≤ fd ∧ ∃ k, e = ⟨.pipeR k, false⟩ := by
  have h := AtPrompt_leaked hp
  constructor
  · intro i hi
    rw [h.get (by omega)]
    rcases i with _ | _ | _ | i
    · rfl
    · rfl
    · rfl
    · omega
  · intro fd e he
    rcases h.get_or fd with h | ⟨-, h3, k, h⟩
    · rw [h] at he
      by_cases h0 : fd = 0
      · exact .inl h0
      by_cases h1 : fd = 1
      · exact .inr (.inl h1)
      by_cases h2 : fd = 2
      · exact .inr (.inr (.inl h2))
      rw [stdTable_other h0 h1 h2] at he
      cases he
    · rw [h] at he
      cases he
      exact .inr (.inr (.inr ⟨h3, k, rfl⟩))

example : (typeLines (scarce (some 1) none) [cs!"ls -l | grep x | wc"] (demoShell [])).2.fds.get 3 =
    some ⟨.pipeR 0, false⟩ := by decide +kernel

/-- C136 is false: the job, the descriptor and the blocked signals stay. -/
theorem C136_counterexample :
    (let s := (typeLines (scarce (some 1) none) [cs!"ls -l | grep x | wc"] (demoShell [])).2
     s.masked = true ∧ s.jc.table.map (fun p => (p.1, p.2.state, p.2.processes.map Process.pid)) =
      [(1, .running, [100, -1, -1])] ∧ s.fds.length = 4 ∧ started s.trace = [[cs!"ls", cs!"-l"]]) := by
  decide +kernel

/-! ## C137 -/

theorem waitRetry_refused (k : Nat) (rest : List WRes) :
    ∀ (n : Nat) (s : Sh), k < n → s.waits = List.replicate k .eintr ++ .err :: rest →
    waitRetry n s = (.ok .err, { s with
      waits := rest
      trace := .waited .err :: (List.replicate k (.waited .eintr) ++ s.trace) }) := by
  induction k with
  | zero =>
    intro n s hn hw
    obtain ⟨n, rfl⟩ : ∃ m, n = m + 1 := ⟨n - 1, by omega⟩
    unfold waitRetry
    have h : waitpidM s = (.ok .err, { s with waits := rest, trace := .waited .err :: s.trace }) := by
      unfold waitpidM; rw [hw]; rfl
    rw [run_bind_ok h]
    rfl
  | succ k ih =>
    intro n s hn hw
    obtain ⟨n, rfl⟩ : ∃ m, n = m + 1 := ⟨n - 1, by omega⟩
    unfold waitRetry
    have h : waitpidM s = (.ok .eintr, { s with
        waits := List.replicate k .eintr ++ .err :: rest
        trace := .waited .eintr :: s.trace }) := by
      unfold waitpidM; rw [hw]; rfl
    rw [run_bind_ok h]
    simp only
    rw [ih n _ (by omega) rfl]
    simp [List.replicate_succ', List.append_assoc]

/-- Waiting for a running job, when there is no child to wait for. -/
theorem waitForJob_refused (w : World) (id : Nat) {s : Sh} {j : Job} (hj : s.jc.getJob id = some j)
    (hrun : j.state = .running) (hst : j.stopStatus = .stillAlive) {k : Nat} {rest : List WRes}
    (hw : s.waits = List.replicate k .eintr ++ .err :: rest) :
    waitForJob w id s = (.ok .stillAlive, { s with
      masked := true
      gotSigchld := false
      waits := rest
      trace := .waited .err :: (List.replicate k (.waited .eintr) ++ s.trace) }) := by
  have h1 : waitOne w id s = (.ok .err, { s with
      masked := true
      gotSigchld := false
      waits := rest
      trace := .waited .err :: (List.replicate k (.waited .eintr) ++ s.trace) }) := by
    unfold waitOne interruptsOff waitProcess
    rw [run_modS_bind]
    refine (run_bind_ok (m := (do
      modS fun s => { s with gotSigchld := false }
      let s ← getS
      waitRetry (s.waits.length + 1) : M WRes)) (a := .err) (s' := _) ?_ _).trans rfl
    rw [run_modS_bind, run_getS_bind]
    refine waitRetry_refused k rest _ _ ?_ hw
    show k < s.waits.length + 1
    rw [hw, List.length_append, List.length_replicate]
    omega
  have hdo : doWait w id s = (.ok (), { s with
      masked := true
      gotSigchld := false
      waits := rest
      trace := .waited .err :: (List.replicate k (.waited .eintr) ++ s.trace) }) := by
    unfold doWait
    rw [run_getS_bind, hj, unwrapM_some, run_pure_bind]
    simp only [hrun, decide_true, Bool.not_true, Bool.false_and]
    rw [if_neg (by simp)]
    show doWaitLoop w id (s.waits.length + 1 + 1) true s = _
    unfold doWaitLoop
    rw [run_getS_bind]
    simp only [Bool.not_true, Bool.false_and]
    rw [if_neg (by simp), run_bind_ok h1]
    rfl
  unfold waitForJob
  rw [run_bind_ok hdo, run_getS_bind]
  have hj' : ({ s with
      masked := true
      gotSigchld := false
      waits := rest
      trace := .waited .err :: (List.replicate k (.waited .eintr) ++ s.trace) } : Sh).jc.getJob id = some j := hj
  rw [hj', unwrapM_some, run_pure_bind]
  rw [if_neg (by rw [hrun, hst]; simp [WStatus.isExited]), hst]
  rfl

theorem deleteJob_last {jc : JobControl} {t : List (Nat × Job)} {id : Nat} {j : Job} (h : jc.table = t ++ [(id, j)])
    (hlt : ∀ q ∈ t, q.1 < id) (hne : j.processes ≠ []) (hst : ∀ p ∈ j.processes, p.status = none)
    (hs : j.stopStatus = .stillAlive) : (jc.deleteJob id).table = t := by
  have hget : tGet id jc.table = some j := by
    unfold tGet
    rw [h]
    exact lookup_last (fun q hq => by have := hlt q hq; omega) _
  have hrem : tRemove id jc.table = t := by
    unfold tRemove
    rw [h, List.filter_append, List.filter_cons, if_neg (by simp), List.filter_nil, List.append_nil]
    exact List.filter_eq_self.2 fun q hq => by have := hlt q hq; simp; omega
  have hnote : JobControl.noteStopped j = j := by
    unfold JobControl.noteStopped
    rcases hp : j.processes with _ | ⟨p, ps⟩
    · rfl
    · have := hst p (by rw [hp]; exact List.mem_cons_self)
      simp only [List.head?_cons, this]
  unfold JobControl.deleteJob
  rw [hget]
  simp only
  rw [if_neg (by rw [List.length_eq_zero_iff]; exact hne), hnote, if_neg (by rw [hs]; simp [WStatus.isStopped])]
  unfold JobControl.updateNextId
  split <;> exact hrem

theorem withSlots_status : ∀ {ps : List Process} {slots : List Slot}, (∀ p ∈ ps, p.status = none) →
    ∀ p ∈ withSlots ps slots, p.status = none
  | [], [], h => h
  | p :: ps, [], h => h
  | [], _ :: _, _ => by simp [withSlots]
  | p :: ps, slot :: slots, h => by
    have ih := withSlots_status (ps := ps) (slots := slots) fun q hq => h q (List.mem_cons_of_mem _ hq)
    have hp := h p List.mem_cons_self
    cases slot with
    | none =>
      intro q hq
      rcases List.mem_cons.1 hq with rfl | hq
      · exact hp
      · exact ih q hq
    | some k =>
      intro q hq
      rcases List.mem_cons.1 hq with rfl | hq
      · exact hp
      · exact ih q hq

theorem slots_none {w : World} {rec : List AndOr → M Int} {b : Bool} {s : Sh} {procs : List (Process × SimpleCommand)}
    {slots : List Slot} (h : Slots w rec b s procs slots) (hfork : ∀ tr, w.fork (tr ++ s.trace) = none) :
    slots = List.replicate slots.length none := by
  rw [List.eq_replicate_iff]
  refine ⟨rfl, fun x hx => ?_⟩
  obtain ⟨i, hi⟩ := List.mem_iff_getElem?.1 hx
  have := h.fork i x hi
  rw [hfork] at this
  cases x with
  | none => rfl
  | some k => cases this

/-- **C137**, what happens instead: when the system refuses every process of a pipeline in the foreground, and there
is no child to wait for, then nothing at all is printed, the exit status is that of the command before, and the list
goes on with it; the job table is as it was.  (The first `k` attempts to wait may have been interrupted.) -/
theorem C137_silent_partial (w : World) (n : Nat) (s : Sh) (hp : AtPrompt w s)
    (p : ExtPipe) (hok : ∀ e ∈ p.stages, e.Simple s) (hfg : p.background = false)
    (hpipe : ∀ tr, w.pipeOk (tr ++ s.trace) = true) (hfork : ∀ tr, w.fork (tr ++ s.trace) = none)
    (k : Nat) (rest : List WRes) (hwaits : s.waits = List.replicate k .eintr ++ .err :: rest) :
    ∃ s', interactiveLine w (n + 1) p.text s = (.ok (), s') ∧ evalText w (n + 1) p.text s = (.ok s.exitStatus, s') ∧
      s'.exitStatus = s.exitStatus ∧ s'.jc.table = s.jc.table ∧ s'.fds = s.fds ∧ s'.masked = false ∧
      s'.trace = .waited .err :: (List.replicate k (.waited .eintr) ++
        (List.replicate p.stages.length .forkFailed ++ s.trace)) := by
  obtain ⟨slots, hs, hend⟩ := extPipe_any w n s p hok (AtPrompt_std hp)
  rcases hend.symm with ⟨-, h2, -⟩ | ⟨h1, h2⟩
  · rw [hpipe] at h2; cases h2
  have hnone := slots_none hs hfork
  have hsmall := ((tableInv w).atPrompt hp).small
  have hle : slots.length ≤ ((p.stages.map Ext.proc).map Prod.fst).length := by
    rw [List.length_map, List.length_map]; omega
  have htab := slots_table (jc := s.jc) hsmall ((p.stages.map Ext.proc).map Prod.fst) p.background slots hle
  have htrace : slotTrace slots = List.replicate p.stages.length .forkFailed := by
    rw [hnone, h1]
    simp [slotTrace, Slot.event]
  rw [hfg] at h2 htab
  generalize hx : reached { s with masked := true } false (p.stages.map Ext.proc) slots (p.stages.length - 1) s.fds = x at h2
  have hxt : x.jc.table = s.jc.table ++ [(s.jc.nextId, ⟨withSlots ((p.stages.map Ext.proc).map Prod.fst) slots, s.jc.nextId,
      .stillAlive, .running, false⟩)] := by rw [← hx]; exact htab
  have hget : x.jc.getJob s.jc.nextId = some ⟨withSlots ((p.stages.map Ext.proc).map Prod.fst) slots, s.jc.nextId,
      .stillAlive, .running, false⟩ := by
    unfold JobControl.getJob tGet
    rw [hxt]
    exact lookup_last (fun q hq => by have := hsmall q hq; omega) _
  have hwait := waitForJob_refused w s.jc.nextId (s := x) hget rfl rfl (k := k) (rest := rest) (by rw [← hx]; exact hwaits)
  have hafter : afterFork w false s.jc.nextId p.stages.length x = (.ok (), { x with
      masked := false
      gotSigchld := false
      waits := rest
      jc := x.jc.deleteJob s.jc.nextId
      trace := .waited .err :: (List.replicate k (.waited .eintr) ++ x.trace) }) := by
    unfold afterFork
    rw [if_neg (by simp [ExtPipe.stages]), if_neg (by simp), run_bind_ok hwait]
    rfl
  have hrun : evalPipeline w (evalFuel w n) (.mk false (p.stages.map Ext.command) p.background) s =
      (.ok s.exitStatus, { x with
        masked := false
        gotSigchld := false
        waits := rest
        jc := x.jc.deleteJob s.jc.nextId
        trace := .waited .err :: (List.replicate k (.waited .eintr) ++ x.trace) }) := by
    rw [hfg, h2, run_bind_ok hafter]
    rw [show s.exitStatus = x.exitStatus by rw [← hx]; rfl]
    rfl
  refine ⟨_, interactiveLine_one (ExtPipe.parse hok) (ExtPipe.text_ne hok) hrun, ?_, ?_, ?_, ?_, rfl, ?_⟩
  · rw [evalText_some (ExtPipe.parse hok)]
    show evalListFrom w (evalFuel w n) (-1) [.mk none none _] s = _
    unfold evalListFrom evalAndOr
    rw [run_bind_ok hrun]
    rfl
  · rw [← hx]; rfl
  · refine deleteJob_last hxt hsmall ?_ (withSlots_status fun q hq => ?_) rfl
    · intro e
      have e : withSlots ((p.stages.map Ext.proc).map Prod.fst) slots = [] := e
      have := congrArg List.length (withSlots_cmds hle)
      rw [List.length_map, List.length_map, e] at this
      simp [ExtPipe.stages] at this
    · simp only [List.map_map, List.mem_map] at hq
      obtain ⟨e, -, rfl⟩ := hq
      rfl
  · rw [← hx]; rfl
  · rw [← hx]
    show Event.waited .err :: (_ ++ (slotTrace slots ++ s.trace)) = _
    rw [htrace]

/-- `ls -l | grep x | wc`, and no process can be created. -/
example : ∃ s', interactiveLine (scarce none (some 0)) (19 + 1) (demoPipe false).text (scarcePrompt none (some 0) [.eintr, .err]) = (.ok (), s') ∧
    s'.jc.table = (scarcePrompt none (some 0) [.eintr, .err]).jc.table := by
  obtain ⟨s', h1, -, -, h2, -⟩ := C137_silent_partial
    (scarce none (some 0)) 19 (scarcePrompt none (some 0) [.eintr, .err]) (scarce_prompt (by decide +kernel))
    (demoPipe false)
    (demoPipe_ok false _ (by decide +kernel) (by decide +kernel) (by decide +kernel)) rfl (fun _ => rfl) (fun _ => rfl)
    1 [] (by decide +kernel)
  exact ⟨s', h1, h2⟩

/-- C137 is false: nothing is printed, `ls && pwd` goes on, `ls &` is announced as pid -1, and `ls "$(ls)"` ends the
shell. -/
theorem C137_counterexample :
    printed (typeLines (scarce none (some 0)) [cs!"ls"] (demoShell [.err])).2.trace = [] ∧
    (typeLines (scarce none (some 0)) [cs!"ls"] (demoShell [.err])).2.exitStatus = 0 ∧
    (printed (typeLines (scarce none (some 0)) [cs!"ls && pwd"] (demoShell [.err])).2.trace).map Prod.snd = [cs!"/\n"] ∧
    (printed (typeLines (scarce none (some 0)) [cs!"ls &"] (demoShell [])).2.trace).map Prod.snd = [cs!"[1] (-1) Running ls &\n"] ∧
    outcome (typeLines (scarce none (some 0)) [cs!"ls \"$(ls)\""] (demoShell [])).1 = .panic .explicit := by
  decide +kernel

/-- **C137**, a pipeline in the background, whichever of its processes the system refuses: it is announced as if it
had been started, with the pid -1 if it is the first process that was refused, and stays in the table as a running job with
the pid -1 for each process that was refused. -/
theorem C137_background (w : World) (n : Nat) (s : Sh) (hp : AtPrompt w s)
    (p : ExtPipe) (hok : ∀ e ∈ p.stages, e.Simple s) (hbg : p.background = true)
    (hpipe : ∀ tr, w.pipeOk (tr ++ s.trace) = true) :
    ∃ (slots : List Slot) (s' : Sh) (job : Job) (pid : Int),
      interactiveLine w (n + 1) p.text s = (.ok (), s') ∧ slots.length = p.stages.length ∧
      (∀ (k : Nat) slot, slots[k]? = some slot →
        w.fork (((slots.take k).map Slot.event).reverse ++ s.trace) = slot.map Prod.fst) ∧
      (slots.map Slot.pid).head? = some pid ∧
      s'.trace = .print (some (.orig 1)) (cs!"[" ++ natStr s.jc.nextId ++ cs!"] (" ++ intStr pid ++
        cs!") " ++ job.show ++ ['\n']) :: ((slots.map Slot.event).reverse ++ s.trace) ∧
      s'.exitStatus = s.exitStatus ∧ s'.jc.table = s.jc.table ++ [(s.jc.nextId, job)] ∧
      job.state = .running ∧ job.processes.map Process.pid = slots.map Slot.pid := by
  obtain ⟨slots, hs, hend⟩ := extPipe_any w n s p hok (AtPrompt_std hp)
  rcases hend.symm with ⟨-, h2, -⟩ | ⟨h1, h2⟩
  · rw [hpipe] at h2; cases h2
  have hsmall := ((tableInv w).atPrompt hp).small
  have hlen : ((p.stages.map Ext.proc).map Prod.fst).length = slots.length := by
    rw [List.length_map, List.length_map, h1]
  have htab := slots_table (jc := s.jc) hsmall ((p.stages.map Ext.proc).map Prod.fst) p.background slots (Nat.le_of_eq hlen.symm)
  rw [hbg] at h2 htab
  have hpids : (withSlots ((p.stages.map Ext.proc).map Prod.fst) slots).map Process.pid = slots.map Slot.pid := by
    rw [withSlots_pids (fun q hq => ?_) (Nat.le_of_eq hlen.symm), hlen, Nat.sub_self, List.replicate_zero, List.append_nil]
    simp only [List.map_map, List.mem_map] at hq
    obtain ⟨e, -, rfl⟩ := hq
    rfl
  rcases hq : withSlots ((p.stages.map Ext.proc).map Prod.fst) slots with _ | ⟨q0, qs⟩
  · rw [hq] at hpids
    have := congrArg List.length hpids
    rw [List.length_map, List.length_map, h1] at this
    simp [ExtPipe.stages] at this
  rw [hq] at hpids htab
  generalize hx : reached { s with masked := true } true (p.stages.map Ext.proc) slots (p.stages.length - 1) s.fds = x at h2
  have hxt : x.jc.table = s.jc.table ++ [(s.jc.nextId, ⟨q0 :: qs, s.jc.nextId, .stillAlive, .running, true⟩)] := by
    rw [← hx]; exact htab
  have hget : x.jc.getJob s.jc.nextId = some ⟨q0 :: qs, s.jc.nextId, .stillAlive, .running, true⟩ := by
    unfold JobControl.getJob tGet
    rw [hxt]
    exact lookup_last (fun q hq => by have := hsmall q hq; omega) _
  have hrun : evalPipeline w (evalFuel w n) (.mk false (p.stages.map Ext.command) p.background) s = (.ok s.exitStatus, { x with
      masked := false
      trace := .print (some (.orig 1)) (cs!"[" ++ natStr s.jc.nextId ++ cs!"] (" ++ intStr q0.pid ++
        cs!") " ++ (Job.mk (q0 :: qs) s.jc.nextId .stillAlive .running true).show ++ ['\n']) :: x.trace }) := by
    rw [hbg, h2, run_bind_ok (afterFork_bg w (by simp [ExtPipe.stages]) hget rfl)]
    rw [show s.exitStatus = x.exitStatus by rw [← hx]; rfl,
      show some (.orig 1) = (x.fds.get 1).map FdE.chan by rw [← hx]; exact (congrArg (Option.map FdE.chan) (AtPrompt_one hp)).symm]
    rfl
  refine ⟨slots, _, _, q0.pid, interactiveLine_one (ExtPipe.parse hok) (ExtPipe.text_ne hok) hrun, h1, hs.fork, ?_, ?_, ?_, hxt,
    rfl, hpids⟩
  · rw [← hpids]; rfl
  · rw [← hx]; rfl
  · rw [← hx]; rfl

/-- `ls -l | grep x | wc &`, and only the first process can be created. -/
example : ∃ (slots : List Slot) (s' : Sh),
    interactiveLine (scarce none (some 3)) (19 + 1) (demoPipe true).text (scarcePrompt none (some 3)) = (.ok (), s') ∧
    slots.length = 3 := by
  obtain ⟨slots, s', -, -, h1, h2, -⟩ := C137_background
    (scarce none (some 3)) 19 (scarcePrompt none (some 3)) (scarce_prompt (by decide +kernel))
    (demoPipe true)
    (demoPipe_ok true _ (by decide +kernel) (by decide +kernel) (by decide +kernel)) rfl (fun _ => rfl)
  exact ⟨slots, s', h1, h2⟩

/-- **C137** for command substitutions, in double quotes: when the system refuses the pipe or the process for it, the
shell ends. -/
theorem C137_substitution (w : World) (n : Nat) (s : Sh) (l : QuotedLine) (hok : l.Ok s) (p : CompleteCommand)
    (hparse : parse l.cmd = some p) (h : w.pipeOk s.trace = false ∨ w.fork s.trace = none) :
    ∃ k, (interactiveLine w (n + 2) l.text s).1 = .panic k := by
  have key : ∃ k, (evalSubshell w (evalFuel w (n + 1)) (substitution l.tick l.cmd) { s with masked := true }).1 = .panic k := by
    unfold evalSubshell
    rw [substText_subst]
    simp only
    rw [hparse, unwrapM_some, run_pure_bind, run_getS_bind]
    by_cases hpo : w.pipeOk s.trace = true
    · obtain ⟨r, wr, hp, -⟩ := pipeM_ok (w := w) (s := { s with masked := true }) hpo
      have hfork : w.fork s.trace = none := by
        rcases h with h | h
        · rw [hpo] at h; cases h
        · exact h
      refine ⟨.explicit, ?_⟩
      rw [bind_assoc, run_bind_ok hp, unwrapM_some, run_pure_bind]
      simp only
      rw [run_getS_bind]
      simp only
      rw [hfork]
      rfl
    · have hp : pipeM w { s with masked := true } = (.ok none, { s with masked := true }) := by
        unfold pipeM
        rw [show w.pipeOk ({ s with masked := true } : Sh).trace = false by simpa using hpo]
        rfl
      refine ⟨.unwrap, ?_⟩
      rw [bind_assoc, run_bind_ok hp]
      rfl
  obtain ⟨k, hk⟩ := key
  exact ⟨k, quoted_crash w n s l hok hk⟩

/-- `a f "x$(pwd;cd /nope)y" 'g h'`, and no process can be created. -/
example : ∃ k, (interactiveLine (scarce none (some 0)) (18 + 2) demoQuoted.text (scarcePrompt none (some 0))).1 = .panic k := by
  rcases hq : parse demoQuoted.cmd with _ | p
  · exact absurd hq (by decide +kernel)
  exact C137_substitution (scarce none (some 0)) 18 (scarcePrompt none (some 0)) demoQuoted
    ⟨by decide, by decide, by decide +kernel, by decide +kernel, by decide +kernel, by decide, by decide⟩ p hq (.inr rfl)

end Rsh
