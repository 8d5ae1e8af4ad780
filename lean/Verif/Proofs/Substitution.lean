import Verif.Spec.Substitution
import Verif.Proofs.Pipes

/-!
# Command substitution from the line to the program
-/

namespace Rsh

open Spec

/-! ## The text of a word -/

theorem takeThrough_found (d : Char) (t r : Str) (h : d ∉ t) : takeThrough d (t ++ d :: r) = (t ++ [d], r) := by
  induction t with
  | nil => rw [List.nil_append, takeThrough, if_pos rfl]; rfl
  | cons c t ih =>
    rw [List.cons_append, takeThrough, if_neg (fun e => h (by rw [e]; exact List.mem_cons_self)),
      ih fun e => h (List.mem_cons_of_mem _ e)]
    rfl

theorem cutLoop_plain (w : World) (rec : List AndOr → M Int) (pre rest : Str) (n : Nat) {b : Str} {s s' : Sh}
    (hp : ∀ c ∈ pre, c ≠ '$' ∧ c ≠ '`') (h : cutLoop w rec n rest s = (.ok b, s')) :
    cutLoop w rec (pre.length + n) (pre ++ rest) s = (.ok (pre ++ b), s') := by
  induction pre with
  | nil => simpa using h
  | cons c pre ih =>
    rw [List.length_cons, Nat.succ_add, List.cons_append, cutLoop]
    have := hp c List.mem_cons_self
    rw [if_neg (by simp [this]), run_bind_ok (ih fun c hc => hp c (List.mem_cons_of_mem _ hc))]
    rfl

theorem cutLoop_end (w : World) (rec : List AndOr → M Int) (n : Nat) (s : Sh) : cutLoop w rec n [] s = (.ok [], s) := by
  cases n <;> rfl

theorem substText_subst (tick : Bool) (t : Str) : substText (substitution tick t) = some t := by
  unfold substText substitution
  cases tick
  · rw [if_pos (by simp [startsWith])]
    simp
  · rw [if_neg (by simp [startsWith]), if_pos (by simp [startsWith])]
    simp

theorem createSubshell_subst (tick : Bool) {t : Str} (ht : substEnd tick ∉ t) (post : Str) :
    ∃ c r, substitution tick t = c :: r ∧ (c = '$' ∨ c = '`') ∧
      createSubshell c (r ++ post) = some (substitution tick t, post) := by
  unfold substitution
  cases tick
  · refine ⟨'$', '(' :: (t ++ [')']), rfl, .inl rfl, ?_⟩
    unfold createSubshell
    rw [if_pos rfl]
    simp only [List.cons_append, List.append_assoc, List.nil_append]
    rw [if_pos trivial, takeThrough_found ')' _ _ ht]
    rfl
  · refine ⟨'`', t ++ ['`'], rfl, .inr rfl, ?_⟩
    unfold createSubshell
    rw [if_neg (by decide)]
    simp only [List.append_assoc, List.cons_append, List.nil_append]
    rw [takeThrough_found '`' _ _ ht]
    rfl

theorem subst_found (tick : Bool) (pre t post : Str) :
    (!hasSub (cs!"$(") ('"' :: ((pre ++ (substitution tick t ++ post)) ++ ['"'])) &&
      !hasSub ['`'] ('"' :: ((pre ++ (substitution tick t ++ post)) ++ ['"']))) = false := by
  unfold substitution
  cases tick
  · rw [show hasSub (cs!"$(") _ = true from (hasSub_iff _ _).2 ⟨'"' :: pre, t ++ ')' :: post ++ ['"'], by simp⟩]
    rfl
  · rw [show hasSub ['`'] _ = true from (hasSub_iff _ _).2 ⟨'"' :: pre, t ++ '`' :: post ++ ['"'], by simp⟩]
    simp

/-- The word with the substitution, when the substitution yields `out`, and the word is not a substitution
once more. -/
theorem evalDoubleQuotes_subst (w : World) (rec : List AndOr → M Int) {tick : Bool} {pre t post out : Str} {s s' : Sh}
    (hpre : ∀ c ∈ pre, c ≠ '$' ∧ c ≠ '`') (hpost : ∀ c ∈ post, c ≠ '$' ∧ c ≠ '`') (ht : substEnd tick ∉ t)
    (h : evalSubshell w rec (substitution tick t) s = (.ok out, s'))
    (hno : substText (pre ++ (out ++ post)) = none) :
    evalDoubleQuotes w rec ('"' :: ((pre ++ (substitution tick t ++ post)) ++ ['"'])) s =
      (.ok (if hasSub [' '] (pre ++ (out ++ post)) then splitWs (pre ++ (out ++ post)) else [pre ++ (out ++ post)]), s') := by
  unfold evalDoubleQuotes
  obtain ⟨c, r, hq, hc, h3⟩ := createSubshell_subst tick ht post
  rw [subst_found]
  simp only [Bool.false_eq_true, if_false]
  have h2 : cutQuotes w rec ('"' :: ((pre ++ (substitution tick t ++ post)) ++ ['"'])) s =
      (.ok (pre ++ (out ++ post)), s') := by
    unfold cutQuotes
    rw [List.tail_cons, List.dropLast_concat]
    refine (congrFun (if_pos rfl) s).trans ?_
    rw [hq, show (pre ++ (c :: r ++ post)).length + 1 =
      pre.length + ((r.length + post.length + 1) + 1) by simp; omega, List.cons_append]
    refine cutLoop_plain w rec pre _ _ hpre ?_
    rw [cutLoop, if_pos hc]
    rw [h3, unwrapM_some, run_pure_bind]
    simp only
    rw [run_bind_ok h]
    have h4 : cutLoop w rec (r.length + post.length + 1) post s' = (.ok post, s') := by
      have := cutLoop_plain w rec post [] (r.length + 1) hpost (cutLoop_end w rec _ s')
      rw [List.append_nil] at this
      rw [show r.length + post.length + 1 = post.length + (r.length + 1) by omega, this]
    rw [run_bind_ok h4]
    rfl
  rw [run_bind_ok h2]
  have h5 : evalSubshell w rec (pre ++ (out ++ post)) s' = (.ok (pre ++ (out ++ post)), s') := by
    unfold evalSubshell
    rw [hno]
    rfl
  rw [run_bind_ok h5]
  split <;> rfl

/-- Ways not to go on. -/
inductive Halt where
  | hang
  | panic (k : PanicKind)
  | exit (c : Int)

/-- The outcome. -/
def Halt.out : Halt → Out α
  | .hang => .hang
  | .panic k => .panic k
  | .exit c => .exit c

theorem halt_bind {z : Halt} {m : M α} {s : Sh} (h : (m s).1 = z.out) (f : α → M β) : ((m >>= f) s).1 = z.out := by
  rw [run_bind]
  rcases hm : m s with ⟨o, s'⟩
  rw [hm] at h
  obtain rfl : o = z.out := h
  cases z <;> rfl

theorem hang_bind {m : M α} {s : Sh} (h : (m s).1 = .hang) (f : α → M β) : ((m >>= f) s).1 = .hang :=
  halt_bind (z := .hang) h f

theorem cutLoop_halt (w : World) (rec : List AndOr → M Int) : ∀ (pre rest : Str) {n : Nat} {s : Sh} {z : Halt},
    (∀ c ∈ pre, c ≠ '$' ∧ c ≠ '`') → (cutLoop w rec n rest s).1 = z.out →
    (cutLoop w rec (pre.length + n) (pre ++ rest) s).1 = z.out := by
  intro pre
  induction pre with
  | nil => intro rest n s z _ h; simpa using h
  | cons c pre ih =>
    intro rest n s z hc h
    rw [List.length_cons, show pre.length + 1 + n = (pre.length + n) + 1 by omega, List.cons_append, cutLoop,
      if_neg (fun e => e.elim (hc c List.mem_cons_self).1 (hc c List.mem_cons_self).2)]
    exact halt_bind (ih rest (fun d hd => hc d (List.mem_cons_of_mem _ hd)) h) _

/-- The word with the substitution, when the substitution does not come back. -/
theorem evalDoubleQuotes_halt (w : World) (rec : List AndOr → M Int) {tick : Bool} {z : Halt} {pre t post : Str} {s : Sh}
    (hpre : ∀ c ∈ pre, c ≠ '$' ∧ c ≠ '`') (ht : substEnd tick ∉ t)
    (h : (evalSubshell w rec (substitution tick t) s).1 = z.out) :
    (evalDoubleQuotes w rec ('"' :: ((pre ++ (substitution tick t ++ post)) ++ ['"'])) s).1 = z.out := by
  unfold evalDoubleQuotes
  obtain ⟨c, r, hq, hc, h3⟩ := createSubshell_subst tick ht post
  rw [subst_found]
  simp only [Bool.false_eq_true, if_false]
  refine halt_bind ?_ _
  unfold cutQuotes
  rw [List.tail_cons, List.dropLast_concat]
  refine (congrArg Prod.fst (congrFun (if_pos rfl) s)).trans ?_
  rw [hq, show (pre ++ (c :: r ++ post)).length + 1 =
    pre.length + ((r.length + post.length + 1) + 1) by simp; omega, List.cons_append]
  refine cutLoop_halt w rec pre _ hpre ?_
  rw [cutLoop, if_pos hc]
  rw [h3, unwrapM_some, run_pure_bind]
  exact halt_bind h _

theorem evalDoubleQuotes_hang (w : World) (rec : List AndOr → M Int) {tick : Bool} {pre t post : Str} {s : Sh}
    (hpre : ∀ c ∈ pre, c ≠ '$' ∧ c ≠ '`') (ht : substEnd tick ∉ t)
    (h : (evalSubshell w rec (substitution tick t) s).1 = .hang) :
    (evalDoubleQuotes w rec ('"' :: ((pre ++ (substitution tick t ++ post)) ++ ['"'])) s).1 = .hang :=
  evalDoubleQuotes_halt (z := .hang) w rec hpre ht h

/-! ## The child -/

/-- The descriptors of the child of a command substitution. -/
def substTable (k : Nat) : FdTable := [(2, ⟨.pipeW k, false⟩), (1, ⟨.pipeW k, false⟩), (0, ⟨.orig 0, false⟩)]

theorem substTable_std (k : Nat) : StdFds (substTable k) := by
  constructor
  · intro i hi
    match i, hi with
    | 0, _ => rfl
    | 1, _ => rfl
    | 2, _ => rfl
  · rfl

theorem uniq_substTable (k : Nat) : Uniq (substTable k) := by unfold Uniq; simp [substTable]

theorem substChild_run (rec : List AndOr → M Int) (cc : CompleteCommand) (k : Nat) (x : Sh)
    (hx : x.fds = (4, ⟨.pipeW k, false⟩) :: (3, ⟨.pipeR k, false⟩) :: stdTable) :
    substChild rec cc 3 4 x = (do
      let _ ← tryE (evalCC rec cc)
      exitM 0 : M Unit) { x with fds := substTable k } := by
  unfold substChild
  rw [run_bind_ok (s' := { x with
    fds := (1, ⟨.pipeW k, false⟩) :: (4, ⟨.pipeW k, false⟩) :: (3, ⟨.pipeR k, false⟩) ::
      [(0, ⟨.orig 0, false⟩), (2, ⟨.orig 2, false⟩)] }) (a := ())]
  rw [run_bind_ok (s' := { x with
    fds := (2, ⟨.pipeW k, false⟩) :: (1, ⟨.pipeW k, false⟩) :: (4, ⟨.pipeW k, false⟩) :: (3, ⟨.pipeR k, false⟩) ::
      [(0, ⟨.orig 0, false⟩)] }) (a := ())]
  rw [run_bind_ok (s' := { x with
    fds := (2, ⟨.pipeW k, false⟩) :: (1, ⟨.pipeW k, false⟩) :: (3, ⟨.pipeR k, false⟩) ::
      [(0, ⟨.orig 0, false⟩)] }) (a := ())]
  rw [run_bind_ok (s' := { x with fds := substTable k }) (a := ())]
  · rfl
  · rfl
  · rfl
  · unfold dup2U; rw [hx]; rfl

theorem outTo_waited (w : World) (ch : Chan) (l : List WRes) : outTo w ch (l.map .waited) = [] := by
  induction l with
  | nil => simp [outTo]
  | cons a l ih => simp [outTo, ih, outTo1]

/-- The wait of a command substitution. -/
theorem subst_wait (w : World) (ev : Event) (k : Nat) (s : Sh) (f : Unit → M α) :
    (emit ev >>= fun _ => closeU 4 >>= fun _ => getS >>= fun st => substSignal w (w.substSig st.trace) >>= f)
      { s with
        fds := (4, ⟨.pipeW k, false⟩) :: (3, ⟨.pipeR k, false⟩) :: stdTable
        nextPipe := k + 1 } =
    (substSignal w (w.substSig (ev :: s.trace)) >>= f)
      { s with
        fds := (3, ⟨.pipeR k, false⟩) :: stdTable
        nextPipe := k + 1
        trace := ev :: s.trace } := rfl

/-- Other signals are held back. -/
theorem substSignal_held {w : World} (h : Uninterrupted w) (tr : List Event) {s : Sh} (hm : s.masked = true) :
    substSignal w (w.substSig tr) s = (.ok (), s) := by
  unfold substSignal
  rcases hg : w.substSig tr with _ | g
  · rfl
  · simp only
    rw [run_getS_bind, if_pos ⟨hm, by simpa [unblockedSignals] using h tr g hg⟩]
    rfl

theorem subst_waited {w : World} (h : Uninterrupted w) (ev : Event) (k : Nat) {s : Sh} (hm : s.masked = true)
    (f : Unit → M α) :
    (emit ev >>= fun _ => closeU 4 >>= fun _ => getS >>= fun st => substSignal w (w.substSig st.trace) >>= f)
      { s with
        fds := (4, ⟨.pipeW k, false⟩) :: (3, ⟨.pipeR k, false⟩) :: stdTable
        nextPipe := k + 1 } =
    f () { s with
        fds := (3, ⟨.pipeR k, false⟩) :: stdTable
        nextPipe := k + 1
        trace := ev :: s.trace } := by
  rw [subst_wait w ev k s f, run_bind_ok]
  exact substSignal_held h _ hm

/-- The program run by a command substitution, and the text it yields. -/
theorem evalSubshell_ext {w : World} (hw : Resources w) (tick : Bool) (n : Nat) {s : Sh} {e : Ext} {text : Str}
    (hok : e.Ok s) (hpre : e.pre = none) (hred : e.redirs = [])
    (hparse : parse text = some (some [.mk none none (.mk false [e.command] false)]))
    (hfds : s.fds = stdTable) (ht : s.jc.table = []) (hh : s.held = []) {file : Str}
    (hrun : ∀ tr, Runnable w s (tr ++ s.trace) e.name file) {pid : Nat} (hpid : w.fork (.born :: s.trace) = some pid)
    (hsig : Uninterrupted w) (hm : s.masked = true) {k : Nat} {code : Int} {rest : List WRes}
    (hwaits : w.childWaits (.born :: s.trace) = List.replicate k .eintr ++ .st (.exited pid code) :: rest)
    (he : .eintr ∉ rest) :
    ∃ (img : ExecImage) (ws : List WRes), img.path = file ∧ img.argv = e.argv ∧ img.env = s.env ∧
      Launched s img ∧ img.ownGroup = s.ownGroup ∧
      (∀ fd, img.fds.get fd = (substTable s.nextPipe).get fd) ∧
      (blen (w.progOut img (.pipeW s.nextPipe)) ≤ w.pipeCap →
        evalSubshell w (evalFuel w (n + 1)) (substitution tick text) s =
          (.ok (trimWs (w.progOut img (.pipeW s.nextPipe))), { s with
            nextPipe := s.nextPipe + 1
            trace := .subst (.exit 0) (.spawn pid (.exec img) [] :: ws.map .waited) :: s.trace })) ∧
      (w.pipeCap < blen (w.progOut img (.pipeW s.nextPipe)) →
        (evalSubshell w (evalFuel w (n + 1)) (substitution tick text) s).1 = .hang) := by
  -- the state in which the child evaluates the command
  let s2 : Sh := { s with
    fds := (4, ⟨.pipeW s.nextPipe, false⟩) :: (3, ⟨.pipeR s.nextPipe, false⟩) :: stdTable, nextPipe := s.nextPipe + 1 }
  let y : Sh := { childStart w s2 with fds := substTable s.nextPipe }
  have hoky : e.Ok { y with masked := true } :=
    ⟨hok.plain, hok.external, hok.alias, hok.function, hok.args, hok.nul, hok.assign⟩
  obtain ⟨kid, kids, hk, -, hrun1⟩ := foreground_run hw (evalFuel w n) (.mk false [e.command] false) rfl
    (s := y) (fun c hc => by rw [List.mem_singleton.1 hc]; exact Ext.plain_command hok) (by simp [Pipeline.seq])
    (evalCommands_ext w (evalFuel w n) (es := [e]) (by simpa using hoky))
    (fun q hq => by rw [List.mem_singleton.1 hq]; exact hok.function) (substTable_std _) ht hh
  have hlen := hk.length
  simp only [List.map_cons, List.map_nil, List.length_cons, List.length_nil] at hlen
  obtain rfl : kids = [] := List.length_eq_zero_iff.1 (by omega)
  have h0 : w.fork (.born :: s.trace) = some kid.1 := hk.pid 0 kid rfl
  have hkp : kid.1 = pid := by rw [hpid] at h0; exact (Option.some.inj h0).symm
  obtain ⟨s', h1, -, -, -, -, ⟨ws, hl⟩, -⟩ := hrun1 k code [] rest (by rw [hkp]; exact hwaits) he (by simp) (by simp)
  obtain ⟨img, hi, g1, g2, g3, g4, g5, g6⟩ := KidOk.image (hk.kid 0 e.proc kid rfl rfl) hok.function hpre hred
    (uniq_substTable s.nextPipe) (fun tr => by
      obtain ⟨a1, a2, a3⟩ := hrun (tr ++ [.born])
      rw [List.append_assoc] at a1 a2
      exact ⟨a1, a2, a3⟩)
  have hkev : kid.event = .spawn pid (.exec img) [] := by unfold Kid.event; rw [hi, hkp]
  have hev : newEvents (childStart w s2).trace s'.trace = .spawn pid (.exec img) [] ::
      (List.replicate k WRes.eintr ++ .st (.exited pid code) :: ws.reverse).map .waited := by
    have e1 : s'.trace = (ws.map .waited ++ .waited (.st (.exited pid code)) ::
        (List.replicate k (.waited .eintr) ++ [.spawn pid (.exec img) []])) ++ (childStart w s2).trace := by
      rw [hl, ← hkev, hkp]
      simp [y]
    rw [e1, newEvents_append]
    simp
  have hchild : runChild w (substChild (evalFuel w (n + 1)) (some [.mk none none (.mk false [e.command] false)]) 3 4) s2 =
      (.ok (.exit 0, .spawn pid (.exec img) [] ::
      (List.replicate k WRes.eintr ++ .st (.exited pid code) :: ws.reverse).map .waited), s2) := by
    unfold runChild
    rw [substChild_run _ _ s.nextPipe _ rfl]
    have e1 : evalCC (evalFuel w (n + 1)) (some [.mk none none (.mk false [e.command] false)]) y = (.ok code, s') := by
      show evalListFrom w (evalFuel w n) (-1) [.mk none none (.mk false [e.command] false)] y = _
      unfold evalListFrom evalAndOr evalListFrom
      rw [run_bind_ok h1]
      rfl
    rw [run_bind_ok (run_tryE_ok e1)]
    show (match childEnd (.exit 0 : Out Unit) s' with
      | some e => (Out.ok (e, newEvents (childStart w s2).trace s'.trace), s2)
      | none => (.deep, s2)) = _
    rw [hev]
    rfl
  have hout : outTo1 w (.pipeW s.nextPipe) (.subst (.exit 0) (.spawn pid (.exec img) [] ::
      (List.replicate k WRes.eintr ++ .st (.exited pid code) :: ws.reverse).map .waited)) =
      w.progOut img (.pipeW s.nextPipe) := by
    simp only [outTo1, outTo, outTo_waited, List.append_nil, List.nil_append]
  have hpipe : pipeM w s = (.ok (some (3, 4)), s2) := by
    unfold pipeM
    rw [if_pos (hw.pipe _), hfds]
    rfl
  have hf : ∃ p, w.fork s2.trace = some p := by
    rcases hq : w.fork s2.trace with _ | p
    · exact absurd hq (hw.fork _)
    · exact ⟨p, rfl⟩
  obtain ⟨p, hp⟩ := hf
  have hsub : evalSubshell w (evalFuel w (n + 1)) (substitution tick text) s =
      (if w.pipeCap < blen (w.progOut img (.pipeW s.nextPipe)) then hangM
        else do
          closeU 3
          pure (trimWs (w.progOut img (.pipeW s.nextPipe))) : M Str) { s with
            fds := (3, ⟨.pipeR s.nextPipe, false⟩) :: stdTable, nextPipe := s.nextPipe + 1
            trace := .subst (.exit 0) (.spawn pid (.exec img) [] ::
              (List.replicate k WRes.eintr ++ .st (.exited pid code) :: ws.reverse).map .waited) :: s.trace } := by
    unfold evalSubshell
    rw [substText_subst]
    simp only
    rw [hparse, unwrapM_some, run_pure_bind, run_getS_bind]
    rw [run_bind_ok (a := (3, 4)) (s' := s2) (by rw [run_bind_ok hpipe]; rfl)]
    simp only
    rw [run_getS_bind, hp, unwrapM_some, run_pure_bind, run_bind_ok hchild]
    simp only
    rw [subst_waited hsig _ s.nextPipe hm, hout]
  refine ⟨img, List.replicate k WRes.eintr ++ .st (.exited pid code) :: ws.reverse, g1, g2, g3, ⟨g4.1, g4.2, g4.3⟩,
    by rw [g5]; rfl, ?_, ?_, ?_⟩
  · intro fd
    rw [g6]
    show ((substTable s.nextPipe).get fd).filter _ = _
    unfold substTable FdTable.get
    simp only [List.lookup_cons]
    cases fd == 2 <;> cases fd == 1 <;> cases fd == 0 <;> rfl
  · intro hb
    rw [hsub, if_neg (by omega)]
    rw [run_bind_ok (a := ()) (s' := { s with
            nextPipe := s.nextPipe + 1
            trace := .subst (.exit 0) (.spawn pid (.exec img) [] ::
              (List.replicate k WRes.eintr ++ .st (.exited pid code) :: ws.reverse).map .waited) :: s.trace })]
    · rfl
    · rw [show closeU 3 { s with
            fds := (3, ⟨.pipeR s.nextPipe, false⟩) :: stdTable, nextPipe := s.nextPipe + 1
            trace := .subst (.exit 0) (.spawn pid (.exec img) [] ::
              (List.replicate k WRes.eintr ++ .st (.exited pid code) :: ws.reverse).map .waited) :: s.trace } =
          (.ok (), { s with
            fds := stdTable, nextPipe := s.nextPipe + 1
            trace := .subst (.exit 0) (.spawn pid (.exec img) [] ::
              (List.replicate k WRes.eintr ++ .st (.exited pid code) :: ws.reverse).map .waited) :: s.trace }) from rfl,
        ← hfds]
  · intro hb
    rw [hsub, if_pos hb]
    rfl

end Rsh
