import Verif.Props.Expansion
import Verif.Spec.Lists

/-!
# Property C25, for any text in the substitution
-/

namespace Rsh

open Spec

/-! ## What reaches a channel -/

theorem arrives_outTo {w : World} {ch : Chan} {evs : List Event} {out : Str} (h : Delivers w ch evs out) :
    outTo w ch evs = out := by
  induction h with
  | nil => simp [outTo]
  | print _ ih => simp [outTo, outTo1, ih]
  | eprint _ ih => simp [outTo, outTo1, ih]
  | spawn _ h2 _ ih1 ih3 =>
    cases h2 with
    | elsewhere h => simp [outTo, outTo1, ih1, ih3, h]
    | _ => simp [outTo, outTo1, ih1, ih3]
  | subst _ h2 _ ih1 ih3 =>
    cases h2 with
    | elsewhere h => simp [outTo, outTo1, ih1, ih3, h]
    | _ => simp [outTo, outTo1, ih1, ih3]
  | @other e es out h1 h2 h3 h4 _ ih =>
    rw [outTo, ih]
    cases e with
    | print to t =>
      have : to ≠ some ch := fun e => h1 t (by rw [e])
      simp [outTo1, this]
    | eprint to t =>
      have : to ≠ some ch := fun e => h2 t (by rw [e])
      simp [outTo1, this]
    | spawn pid d evs => exact absurd rfl (h3 _ _ _)
    | subst d evs => exact absurd rfl (h4 _ _)
    | _ => simp [outTo1]

/-- The second command as the theorems about external commands have it, when the substitution gives `vs`. -/
def Spec.QuotedLine.ext (l : QuotedLine) (vs : List Str) : Ext :=
  { name := l.name, args := (l.before.map Prod.snd ++ (vs ++ l.after.map Prod.snd)).map fun x => (.plain [], x) }

theorem Spec.QuotedLine.ext_argv (l : QuotedLine) (vs : List Str) : (l.ext vs).argv = l.argv vs := by
  unfold Ext.argv Ext.words QuotedLine.ext QuotedLine.argv
  simp [Function.comp_def]

theorem QuotedLine.parse {l : QuotedLine} {s : Sh} (h : l.Ok s) :
    parse l.text = some (some [.mk none none (.mk false [.simple ⟨none, l.name,
      some ⟨[], l.words.map Typed.text⟩⟩] false)]) := by
  have hword : l.word.Ok := by
    show '"' ∉ l.pre ++ (substitution l.tick l.cmd ++ l.post)
    have hq : '"' ∉ substitution l.tick l.cmd := by
      unfold substitution
      split
      · simpa using h.text.1
      · simpa using h.text.1
    simp only [List.mem_append, not_or]
    exact ⟨fun e => (h.around _ (List.mem_append_left _ e)).1 rfl, hq,
      fun e => (h.around _ (List.mem_append_right _ e)).1 rfl⟩
  have hws : ∀ t ∈ l.words, t.Ok := by
    intro t ht
    unfold QuotedLine.words at ht
    rcases List.mem_append.1 ht with ht | ht
    · obtain ⟨a, ha, rfl⟩ := List.mem_map.1 ht
      exact (h.args a (List.mem_append_left _ ha)).1
    · rcases List.mem_cons.1 ht with rfl | ht
      · exact hword
      · obtain ⟨a, ha, rfl⟩ := List.mem_map.1 ht
        exact (h.args a (List.mem_append_right _ ha)).1
  have := parse_line [] (.plain l.name) (l.words.map fun t => ([' '], t)) [] h.name.1
    (fun p hp => by
      obtain ⟨t, ht, rfl⟩ := List.mem_map.1 hp
      exact hws t ht)
    ⟨fun p hp => by
      simp only [List.map_map, List.mem_cons, List.mem_map] at hp
      rcases hp with rfl | ⟨a, ha, rfl⟩
      · simp
      · intro b hb
        rw [List.mem_singleton.1 hb]
        exact (by decide : Blank ' '),
     fun p hp => by
      simp only [List.map_map, List.tail_cons, List.mem_map] at hp
      obtain ⟨a, ha, rfl⟩ := hp
      simp, by simp⟩
  unfold QuotedLine.text
  rw [show (l.words.map fun t => (([' '] : Str), t.text)) =
    (l.words.map fun t => (([' '] : Str), t)).map fun p => (p.1, p.2.text) by simp [Function.comp_def]]
  refine this.trans ?_
  unfold wordsCommand sufOf
  have hne : l.words ≠ [] := by unfold QuotedLine.words; simp
  rcases hws : l.words with _ | ⟨x, xs⟩
  · exact absurd hws hne
  · simp [Typed.text, Function.comp_def]

/-- The rest of the line, when the substitution is done. -/
theorem quoted_line (w : World) (hw : Resources w) (n : Nat) (s : Sh) (hp : AtPrompt w s) (l : QuotedLine) (hok : l.Ok s)
    (file' : Str) (hrun' : ∀ tr, Runnable w s (tr ++ s.trace) l.name file') (e : ChildEnd) (evs : List Event) (v0 : Str)
    (hsub : evalSubshell w (evalFuel w (n + 1)) (substitution l.tick l.cmd) { s with masked := true } =
      (.ok v0, { s with
        masked := true
        nextPipe := s.nextPipe + 1
        trace := .subst e evs :: s.trace })) (vs : List Str) (hbec : Becomes (l.pre ++ (v0 ++ l.post)) vs)
    (hnul : ∀ x ∈ vs, '\x00' ∉ x) (hbt : (l.pre ++ (v0 ++ l.post)).head? ≠ some '`')
    (hds : ∀ t, l.pre ++ (v0 ++ l.post) ≠ '$' :: '(' :: t) :
    ∃ pid' img', Happened s (interactiveLine w (n + 2) l.text s).2 [.subst e evs, .spawn pid' (.exec img') []] ∧
      img'.path = file' ∧ img'.argv = l.argv vs ∧ img'.env = s.env ∧ ∀ fd, img'.fds.get fd = stdTable.get fd := by
  have hfds := AtPrompt_resources_fds hw hp
  have hpl : ∀ c ∈ l.pre ++ l.post, c ≠ '$' ∧ c ≠ '`' := fun c hc => (hok.around c hc).2
  have hno : substText (l.pre ++ (v0 ++ l.post)) = none := by
    generalize l.pre ++ (v0 ++ l.post) = v at hbt hds
    unfold substText
    rw [if_neg, if_neg]
    · rw [startsWith_single]; exact hbt
    · intro e
      obtain ⟨t, ht⟩ := List.isPrefixOf_iff_prefix.1 e
      exact hds t ht.symm
  have hdq := evalDoubleQuotes_subst w (evalFuel w (n + 1)) (fun c hc => hpl c (List.mem_append_left _ hc))
    (fun c hc => hpl c (List.mem_append_right _ hc)) hok.text.2 hsub hno
  have hvs : (if hasSub [' '] (l.pre ++ (v0 ++ l.post)) then
      splitWs (l.pre ++ (v0 ++ l.post)) else
      [l.pre ++ (v0 ++ l.post)]) = vs := by
    unfold Becomes at hbec
    by_cases hsp : ' ' ∈ l.pre ++ (v0 ++ l.post)
    · rw [if_pos hsp] at hbec
      rw [if_pos ((hasSub_single _ _).2 hsp), splitWs_iff.2 hbec]
    · rw [if_neg hsp] at hbec
      rw [if_neg (fun e => hsp ((hasSub_single _ _).1 e)), hbec]
  rw [hvs] at hdq
  generalize hs1 : ({ s with
    masked := true
    nextPipe := s.nextPipe + 1
    trace := .subst e evs :: s.trace } : Sh) = s1
  have hdq : evalDoubleQuotes w (evalFuel w (n + 1)) l.word.text { s with masked := true } = (.ok vs, s1) := by
    rw [← hs1]; exact hdq
  have hsuf : evalSuffixWords w (evalFuel w (n + 1)) ((l.words.map Typed.text).map (expandWord s.ctx))
      { s with masked := true } = (.ok (l.before.map Prod.snd ++ (vs ++ l.after.map Prod.snd)), s1) := by
    unfold QuotedLine.words
    rw [List.map_append, List.map_append, List.map_cons, List.map_cons, List.map_map (l := l.before), List.map_map (l := l.after)]
    refine evalSuffixWords_before w _ (m := s.ctx) (arrive_all l.before fun a ha => (hok.args a (List.mem_append_left _ ha)).2.1) ?_
    have e1 : expandWord s.ctx l.word.text = l.word.text := expandWord_of_head (by simp [QuotedLine.word, Typed.text])
    rw [e1]
    refine evalSuffixWords_double w _ (vt := vs) hdq ?_
    exact evalSuffixWords_all w _ (m := s.ctx) (arrive_all l.after fun a ha => (hok.args a (List.mem_append_right _ ha)).2.1) s1
  have hne : l.words.map Typed.text ≠ [] := by unfold QuotedLine.words; simp
  have hex : expandCommand w (evalFuel w (n + 1)) ⟨none, l.name, some ⟨[], l.words.map Typed.text⟩⟩
      { s with masked := true } = (.ok (l.ext vs).proc.2, s1) := by
    unfold expandCommand
    rw [run_bind_ok (aliasLookup_none hok.alias),
      run_bind_ok (expandVars_run (by simp) (plainWord_head hok.name.1 (by decide)) _)]
    unfold evalWords
    rw [if_neg hok.name.1.1]
    have e1 : ¬ startsWith ['\''] l.name = true := fun e =>
      plainWord_head hok.name.1 (c := '\'') (by decide) ((startsWith_single _ _).1 e)
    simp only [e1, Bool.false_eq_true, if_false]
    rw [run_pure_bind, splitQts_plain hok.name.1, unwrapM_some, run_pure_bind,
      run_bind_ok (evalNameWords_one w _ (plainWord_head hok.name.1 (by decide)) _)]
    simp only [Option.map_some]
    rw [if_neg (by simpa using hne), run_bind_ok hsuf]
    unfold Ext.proc QuotedLine.ext Ext.words
    simp [Function.comp_def]
  have harg : argvOf (l.ext vs).proc.2 = some (l.ext vs).argv := by
    unfold argvOf
    show (if (l.ext vs).argv.any (hasChar '\x00') then none else some (l.ext vs).argv) = _
    rw [if_neg]
    rw [List.any_eq_true, QuotedLine.ext_argv]
    rintro ⟨x, hx, hn⟩
    have hn := hasChar_iff.1 hn
    unfold QuotedLine.argv at hx
    rcases List.mem_cons.1 hx with rfl | hx
    · exact hok.name.2 hn
    · rcases List.mem_append.1 hx with hx | hx
      · obtain ⟨a, ha, rfl⟩ := List.mem_map.1 hx
        exact (hok.args a (List.mem_append_left _ ha)).2.2 hn
      · rcases List.mem_append.1 hx with hx | hx
        · exact hnul x hx hn
        · obtain ⟨a, ha, rfl⟩ := List.mem_map.1 hx
          exact (hok.args a (List.mem_append_right _ ha)).2.2 hn
  have hcmds : evalCommands w (evalFuel w (n + 1)) [.simple ⟨none, l.name, some ⟨[], l.words.map Typed.text⟩⟩]
      { s with masked := true } = (.ok [(l.ext vs).proc], s1) := by
    unfold evalCommands evalCommand evalSimple
    simp only
    rw [if_neg (by rw [isBuiltin_iff]; exact hok.external), run_bind, run_bind_ok hex, harg]
    rfl
  have hfun : s1.ctx.isFunction l.name = false := by rw [← hs1]; exact hok.function
  obtain ⟨kids, hk, hl⟩ := pipeline_launch hw (evalFuel w (n + 1)) (.mk false [.simple ⟨none, l.name,
    some ⟨[], l.words.map Typed.text⟩⟩] false) hcmds (by simp)
    (fun q hq => by rw [List.mem_singleton.1 hq]; exact hfun)
    (by rw [← hs1]; show StdFds s.fds; rw [hfds]; exact stdTable_std)
  have hsil : Silent (launched s1 false [(l.ext vs).proc] kids) (evalPipeline w (evalFuel w (n + 1)) (.mk false
      [.simple ⟨none, l.name, some ⟨[], l.words.map Typed.text⟩⟩] false) s).2 := by
    rw [hl]
    have S := Silent.seq
    apply silent_post
    refine Keeps.bind S (silent_afterFork w false _ _) (fun _ => ?_) _
    refine .bind (m := interruptsOn) S (silent_modS fun _ => rfl) fun _ => ?_
    exact .bind S (.getS S) fun _ => .pure S _
  have hin : l.text ≠ [] := by
    have := hok.name.1.1
    simp [QuotedLine.text, line, this]
  obtain ⟨q, hq, hquiet⟩ := interactiveLine_silent (QuotedLine.parse hok) hin hsil
  have hlen := hk.length
  rcases kids with _ | ⟨kid, _ | ⟨kid', kids⟩⟩
  · simp at hlen
  · obtain ⟨img', hi, g1, g2, g3, -, -, g6⟩ := KidOk.image (hk.kid 0 _ kid rfl rfl) hfun rfl rfl
      (by rw [← hs1]; show Uniq s.fds; rw [hfds]; exact uniq_stdTable) (fun tr => by
        rw [← hs1]
        have := hrun' (tr ++ [.subst e evs])
        rw [List.append_assoc] at this
        exact ⟨this.path, this.exec, this.nul⟩)
    refine ⟨kid.1, img', ⟨q, hquiet, ?_⟩, g1, ?_, ?_, ?_⟩
    · rw [hq]
      have : kid.event = .spawn kid.1 (.exec img') [] := by unfold Kid.event; rw [hi]
      unfold launched
      simp only [List.map_cons, List.map_nil, this]
      rw [← hs1]
      simp
    · rw [g2, QuotedLine.ext_argv]
    · rw [g3, ← hs1]
    · intro fd
      rw [g6, ← hs1]
      show (stageFd s.fds none none fd).filter _ = _
      rw [hfds]
      exact stdTable_filter none none fd
  · simp at hlen

/-- The rest of the line, when the substitution ends the shell. -/
theorem quoted_halt {z : Halt} (w : World) (n : Nat) (s : Sh) (l : QuotedLine) (hok : l.Ok s)
    (hsub : (evalSubshell w (evalFuel w (n + 1)) (substitution l.tick l.cmd) { s with masked := true }).1 = z.out) :
    (interactiveLine w (n + 2) l.text s).1 = z.out := by
  have hdq := evalDoubleQuotes_halt w (evalFuel w (n + 1)) (post := l.post)
    (fun c hc => (hok.around c (List.mem_append_left _ hc)).2) hok.text.2 hsub
  have hsuf : (evalSuffixWords w (evalFuel w (n + 1)) ((l.words.map Typed.text).map (expandWord s.ctx))
      { s with masked := true }).1 = z.out := by
    unfold QuotedLine.words
    rw [List.map_append, List.map_append, List.map_cons, List.map_cons, List.map_map (l := l.before)]
    have e1 : expandWord s.ctx l.word.text = l.word.text := expandWord_of_head (by simp [QuotedLine.word, Typed.text])
    rw [e1]
    exact evalSuffixWords_halt w _ (m := s.ctx)
      (arrive_all l.before fun a ha => (hok.args a (List.mem_append_left _ ha)).2.1) hdq
  have hne : l.words.map Typed.text ≠ [] := by unfold QuotedLine.words; simp
  have hex : (expandCommand w (evalFuel w (n + 1)) ⟨none, l.name, some ⟨[], l.words.map Typed.text⟩⟩
      { s with masked := true }).1 = z.out := by
    unfold expandCommand
    rw [run_bind_ok (aliasLookup_none hok.alias),
      run_bind_ok (expandVars_run (by simp) (plainWord_head hok.name.1 (by decide)) _)]
    unfold evalWords
    rw [if_neg hok.name.1.1]
    have e1 : ¬ startsWith ['\''] l.name = true := fun e =>
      plainWord_head hok.name.1 (c := '\'') (by decide) ((startsWith_single _ _).1 e)
    simp only [e1, Bool.false_eq_true, if_false]
    rw [run_pure_bind, splitQts_plain hok.name.1, unwrapM_some, run_pure_bind,
      run_bind_ok (evalNameWords_one w _ (plainWord_head hok.name.1 (by decide)) _)]
    simp only [Option.map_some]
    rw [if_neg (by simpa using hne)]
    exact halt_bind hsuf _
  have hpl : (evalPipeline w (evalFuel w (n + 1)) (.mk false [.simple ⟨none, l.name,
      some ⟨[], l.words.map Typed.text⟩⟩] false) s).1 = z.out := by
    unfold evalPipeline
    rw [run_bind_ok (show interruptsOff s = (.ok (), { s with masked := true }) from rfl)]
    refine halt_bind ?_ _
    unfold Pipeline.seq evalCommands evalCommand evalSimple
    simp only
    rw [if_neg (by rw [isBuiltin_iff]; exact hok.external)]
    exact halt_bind (halt_bind hex _) _
  have htop : (evalTop w (n + 2) (some [.mk none none (.mk false [.simple ⟨none, l.name,
      some ⟨[], l.words.map Typed.text⟩⟩] false)]) s).1 = z.out := by
    show (evalListFrom w (evalFuel w (n + 1)) (-1) [.mk none none _] s).1 = _
    unfold evalListFrom evalAndOr
    exact halt_bind hpl _
  have hin : l.text ≠ [] := by
    have := hok.name.1.1
    simp [QuotedLine.text, line, this]
  unfold interactiveLine
  rw [if_neg hin, QuotedLine.parse hok]
  simp only
  rw [run_bind, run_tryE]
  rcases hr : evalTop w (n + 2) (some [.mk none none (.mk false [.simple ⟨none, l.name,
      some ⟨[], l.words.map Typed.text⟩⟩] false)]) s with ⟨o, s'⟩
  rw [hr] at htop
  obtain rfl : o = z.out := htop
  cases z <;> rfl

theorem quoted_hang (w : World) (n : Nat) (s : Sh) (l : QuotedLine) (hok : l.Ok s)
    (hsub : (evalSubshell w (evalFuel w (n + 1)) (substitution l.tick l.cmd) { s with masked := true }).1 = .hang) :
    (interactiveLine w (n + 2) l.text s).1 = .hang :=
  quoted_halt (z := .hang) w n s l hok hsub

theorem evalText_some {w : World} {n : Nat} {text : Str} {p : CompleteCommand} (h : parse text = some p) :
    evalText w n text = evalCC (evalFuel w n) p := by
  unfold evalText
  rw [h]
  rfl

/-- The copy of the shell. -/
theorem substChild_any {w : World} (n : Nat) {s : Sh} {text : Str} {p : CompleteCommand} (hparse : parse text = some p)
    (hm : s.masked = true) {o : Out Int} {s1 : Sh} (hrun : evalText w n text (copyOf w s) = (o, s1)) {e : ChildEnd}
    (hend : CopyEnds o s1 e ∨ o = .hang ∧ e = .hang) {evs : List Event} (hevs : s1.trace = evs.reverse ++ (copyOf w s).trace) :
    runChild w (substChild (evalFuel w n) p 3 4) { s with
      fds := (4, ⟨.pipeW s.nextPipe, false⟩) :: (3, ⟨.pipeR s.nextPipe, false⟩) :: stdTable, nextPipe := s.nextPipe + 1 } =
      (.ok (e, evs), { s with
        fds := (4, ⟨.pipeW s.nextPipe, false⟩) :: (3, ⟨.pipeR s.nextPipe, false⟩) :: stdTable
        nextPipe := s.nextPipe + 1 }) := by
  rw [evalText_some hparse] at hrun
  have hev : newEvents (.born :: s.trace) s1.trace = evs := by
    rw [hevs]
    show newEvents (.born :: s.trace) (evs.reverse ++ .born :: s.trace) = evs
    rw [newEvents_append, List.reverse_reverse]
  unfold runChild
  rw [substChild_run _ _ s.nextPipe _ rfl]
  have hst : ({ childStart w { s with
      fds := (4, ⟨.pipeW s.nextPipe, false⟩) :: (3, ⟨.pipeR s.nextPipe, false⟩) :: stdTable
      nextPipe := s.nextPipe + 1 } with fds := substTable s.nextPipe } : Sh) = copyOf w s := by
    unfold childStart copyOf substTable
    rw [← hm]
  rw [hst]
  rcases hend with hend | ⟨rfl, rfl⟩
  · cases hend with
    | ok =>
      rw [run_bind_ok (run_tryE_ok hrun)]
      exact congrArg (fun x => (Out.ok (ChildEnd.exit 0, x), _)) hev
    | err =>
      rw [run_bind, run_tryE, hrun]
      exact congrArg (fun x => (Out.ok (ChildEnd.exit 0, x), _)) hev
    | exit =>
      rw [run_bind, run_tryE, hrun]
      exact congrArg (fun x => (Out.ok (ChildEnd.exit _, x), _)) hev
    | exec =>
      rw [run_bind, run_tryE, hrun]
      exact congrArg (fun x => (Out.ok (ChildEnd.exec _, x), _)) hev
    | panic =>
      rw [run_bind, run_tryE, hrun]
      exact congrArg (fun x => (Out.ok (ChildEnd.panic _, x), _)) hev
  · rw [run_bind, run_tryE, hrun]
    exact congrArg (fun x => (Out.ok (ChildEnd.hang, x), _)) hev

/-- The substitution. -/
theorem evalSubshell_any {w : World} (hw : Resources w) (hsig : Uninterrupted w) (tick : Bool) (n : Nat) {s : Sh} {text : Str} {p : CompleteCommand}
    (hparse : parse text = some p) (hfds : s.fds = stdTable) (hm : s.masked = true) {o : Out Int} {s1 : Sh}
    (hrun : evalText w n text (copyOf w s) = (o, s1)) {e : ChildEnd} (hend : CopyEnds o s1 e ∨ o = .hang ∧ e = .hang)
    {evs : List Event} (hevs : s1.trace = evs.reverse ++ (copyOf w s).trace) {out : Str}
    (hout : outTo1 w (.pipeW s.nextPipe) (.subst e evs) = out) :
    (e ≠ .hang → blen out ≤ w.pipeCap → evalSubshell w (evalFuel w n) (substitution tick text) s = (.ok (trimWs out), { s with
      nextPipe := s.nextPipe + 1
      trace := .subst e evs :: s.trace })) ∧
    (e = .hang ∨ w.pipeCap < blen out → (evalSubshell w (evalFuel w n) (substitution tick text) s).1 = .hang) := by
  have hpipe : pipeM w s = (.ok (some (3, 4)), { s with
      fds := (4, ⟨.pipeW s.nextPipe, false⟩) :: (3, ⟨.pipeR s.nextPipe, false⟩) :: stdTable
      nextPipe := s.nextPipe + 1 }) := by
    unfold pipeM
    rw [if_pos (hw.pipe _), hfds]
    rfl
  have hf : ∃ p, w.fork s.trace = some p := by
    rcases hq : w.fork s.trace with _ | p
    · exact absurd hq (hw.fork _)
    · exact ⟨p, rfl⟩
  obtain ⟨q, hq⟩ := hf
  let s3 : Sh := { s with
    fds := (3, ⟨.pipeR s.nextPipe, false⟩) :: stdTable
    nextPipe := s.nextPipe + 1
    trace := .subst e evs :: s.trace }
  have hsub (m : M Str) (hm' : (e = .hang ∨ w.pipeCap < blen out) ∧ m = hangM ∨
      (e ≠ .hang ∧ blen out ≤ w.pipeCap) ∧ m = (do
            closeU 3
            pure (trimWs out))) : evalSubshell w (evalFuel w n) (substitution tick text) s = m s3 := by
    unfold evalSubshell
    rw [substText_subst]
    simp only
    rw [hparse, unwrapM_some, run_pure_bind, run_getS_bind]
    rw [run_bind_ok (a := (3, 4)) (by rw [run_bind_ok hpipe]; rfl)]
    simp only
    rw [run_getS_bind, hq, unwrapM_some, run_pure_bind, run_bind_ok (substChild_any n hparse hm hrun hend hevs)]
    simp only
    rw [subst_waited hsig _ s.nextPipe hm, hout]
    rcases hm' with ⟨h, rfl⟩ | ⟨⟨h1, h2⟩, rfl⟩
    · cases e with
      | hang => rfl
      | _ =>
        rcases h with h | h
        · cases h
        · simp only [if_pos h]
          rfl
    · have h3 : ¬ w.pipeCap < blen out := by omega
      cases e with
      | hang => exact absurd rfl h1
      | _ =>
        simp only [if_neg h3]
        rfl
  constructor
  · intro he hb
    rw [hsub _ (.inr ⟨⟨he, hb⟩, rfl⟩), run_bind_ok (m := closeU 3) (s := s3) (a := ()) (s' := { s with
            fds := stdTable
            nextPipe := s.nextPipe + 1
            trace := .subst e evs :: s.trace }) rfl, ← hfds]
    rfl
  · intro h
    rw [hsub _ (.inl ⟨h, rfl⟩)]
    rfl

/-- **C25** for any text in the substitution, as far as it holds: a copy of the shell evaluates the text, with its standard
output and standard error connected to a pipe.  If everything it, the programs it starts and the programs these start write
there fits into the pipe, it takes the place of the substitution, without the blanks around it.  If there is then a space
in the text, it is cut into words; else it is one argument, as it should be.  (What is missing: output that does not fit, and output that looks like a command substitution.) -/
theorem C25_any_partial (w : World) (hw : Resources w) (hsig : Uninterrupted w) (n : Nat) (s : Sh) (hp : AtPrompt w s) (l : QuotedLine) (hok : l.Ok s)
    (p : CompleteCommand) (hparse : parse l.cmd = some p) (file' : Str)
    (hrun' : ∀ tr, Runnable w s (tr ++ s.trace) l.name file') (o : Out Int) (s1 : Sh)
    (hrun : evalText w (n + 1) l.cmd (copyOf w s) = (o, s1)) (e : ChildEnd) (hend : CopyEnds o s1 e) (evs : List Event)
    (hevs : s1.trace = evs.reverse ++ (copyOf w s).trace) (out : Str)
    (hout : Delivers w (.pipeW s.nextPipe) [.subst e evs] out) (hfit : blen out ≤ w.pipeCap) (v0 v : Str) (htr : Trimmed out v0)
    (hv : v = l.pre ++ (v0 ++ l.post)) (vs : List Str) (hbec : Becomes v vs) (hnul : ∀ x ∈ vs, '\x00' ∉ x)
    (hbt : v.head? ≠ some '`') (hds : ∀ t, v ≠ '$' :: '(' :: t) :
    ∃ pid' img', Happened s (interactiveLine w (n + 2) l.text s).2 [.subst e evs, .spawn pid' (.exec img') []] ∧
      img'.path = file' ∧ img'.argv = l.argv vs ∧ img'.env = s.env ∧ ∀ fd, img'.fds.get fd = stdTable.get fd := by
  subst hv
  rw [← trimWs_iff] at htr
  subst htr
  have hfds : s.fds = stdTable := AtPrompt_resources_fds hw hp
  have ho := arrives_outTo hout
  rw [outTo, outTo, List.append_nil] at ho
  have hne : e ≠ .hang := by rintro rfl; cases hend
  exact quoted_line w hw n s hp l hok file' hrun' e evs _ ((evalSubshell_any hw hsig l.tick (n + 1)
    (s := { s with masked := true }) hparse hfds rfl hrun (.inl hend) hevs ho).1 hne hfit) vs hbec
    hnul hbt hds

/-- `a f "x$(pwd;cd /nope)y" 'g h'`. -/
def demoQuoted : QuotedLine :=
  { name := cs!"a", before := [(.plain (cs!"f"), cs!"f")], pre := cs!"x", post := cs!"y"
    cmd := cs!"pwd;cd /nope"
    after := [(.single (cs!"g h"), cs!"g h")] }

theorem demoQuoted_ok : demoQuoted.Ok (atPrompt []) :=
  ⟨by decide, by decide, by decide +kernel, by decide +kernel, by decide +kernel, by decide, by decide⟩

example : demoQuoted.text = cs!"a f \"x$(pwd;cd /nope)y\" 'g h'" ∧
    started (demo [demoQuoted.text]).trace = [[cs!"a", cs!"f", cs!"x/y", cs!"g h"]] := by
  decide +kernel

theorem demoQuoted_run : ∃ e, evalText (demoWorld []) 19 demoQuoted.cmd (copyOf (demoWorld []) (atPrompt [])) =
    (.err e, { copyOf (demoWorld []) (atPrompt []) with
      trace := .print (some (.pipeW 0)) (cs!"/\n") :: (copyOf (demoWorld []) (atPrompt [])).trace }) :=
  ⟨_, rfl⟩

/-- The hypotheses of `C25_any_partial` are met. -/
example : ∃ img' : ExecImage, img'.argv = [cs!"a", cs!"f", cs!"x/y", cs!"g h"] := by
  obtain ⟨e, he⟩ := demoQuoted_run
  rcases hq : parse demoQuoted.cmd with _ | p
  · exact absurd hq (by decide +kernel)
  obtain ⟨-, img', -, -, h, -⟩ := C25_any_partial (demoWorld []) (demo_resources []) (fun _ _ => nofun) 18 (atPrompt [])
    (atPrompt_ok (by decide +kernel)) demoQuoted demoQuoted_ok p hq (cs!"/bin/" ++ cs!"a")
    (fun tr => demo_runnable (by decide +kernel) (by decide) (by decide) _) _ _ he _ .err
    [.print (some (.pipeW 0)) (cs!"/\n")] rfl (cs!"/\n") (.subst (.print .nil) .exit .nil) (by decide) (cs!"/") (cs!"x/y")
    (trimWs_iff.1 (by decide)) (by decide) [cs!"x/y"] (by simp [Becomes]) (by decide) (by decide) (by simp)
  exact ⟨img', h⟩

/-- **C25** fails for any text whose output does not fit into a pipe, or that never ends: the shell does not come back. -/
theorem C25_stuck (w : World) (hw : Resources w) (hsig : Uninterrupted w) (n : Nat) (s : Sh) (hp : AtPrompt w s) (l : QuotedLine) (hok : l.Ok s)
    (p : CompleteCommand) (hparse : parse l.cmd = some p) (o : Out Int) (s1 : Sh)
    (hrun : evalText w (n + 1) l.cmd (copyOf w s) = (o, s1)) (e : ChildEnd) (evs : List Event)
    (hevs : s1.trace = evs.reverse ++ (copyOf w s).trace) (out : Str) (hout : Delivers w (.pipeW s.nextPipe) [.subst e evs] out)
    (h : CopyEnds o s1 e ∧ w.pipeCap < blen out ∨ o = .hang ∧ e = .hang) : (interactiveLine w (n + 2) l.text s).1 = .hang := by
  have hfds : s.fds = stdTable := AtPrompt_resources_fds hw hp
  have ho := arrives_outTo hout
  rw [outTo, outTo, List.append_nil] at ho
  refine quoted_hang w n s l hok ((evalSubshell_any hw hsig l.tick (n + 1) (s := { s with masked := true }) hparse
    hfds rfl hrun (h.imp And.left id) hevs ho).2 ?_)
  rcases h with ⟨-, h⟩ | ⟨-, h⟩
  · exact .inr h
  · exact .inl h

/-- `C25_stuck` speaks of something that happens: `a "$(pwd)"` in a world whose pipes hold one byte. -/
example : (interactiveLine { demoWorld [] with pipeCap := 1 } 20 (cs!"a \"$(pwd)\"") (atPrompt [])).1 = .hang := by
  have ho : outcome (interactiveLine { demoWorld [] with pipeCap := 1 } 20 (cs!"a \"$(pwd)\"") (atPrompt [])).1 = .hang := by
    decide +kernel
  revert ho
  generalize (interactiveLine { demoWorld [] with pipeCap := 1 } 20 (cs!"a \"$(pwd)\"") (atPrompt [])).1 = o
  cases o <;> simp [outcome]

end Rsh
