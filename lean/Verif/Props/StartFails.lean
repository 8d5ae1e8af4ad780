import Verif.Props.FromStart

/-!
# Property C167: start-up files that fail
-/

namespace Rsh

open Spec

/-- The start-up files up to a failing one; `τ` is the state in which it fails. -/
def Spec.FnWorld.startFails (u : FnWorld) (d : Nat) (b : Origin) (name : Str) (ps : List Str) (τ : FnState) : Prop :=
  ∃ pre l post σ, b.starting = pre ++ l :: post ∧ u.startUp d pre (b.ref name ps) = some σ ∧ σ.ended = none ∧
    u.line d σ l = some τ ∧ ∃ m, τ.stop = some (.failed m)

theorem start_file_stop {w : World} {u : FnWorld} {all : List WRes} {s0 : Sh} (S : FnSetting w u s0) (n : Nat) {p : Str}
    {l : FnLine} (hf : StartFile w p (some l)) {σ τ : FnState} {s : Sh} (h : FnSim w u (all, none) s0 σ s)
    (hok : FnLineOk w u s0 l) (hr : u.line n σ l = some τ) (hs : ∃ m, τ.stop = some (.failed m)) (hb : Begins all τ.flat) :
    ∃ s', readStartup w (n + 1) p s = (.panic .unwrap, s') ∧ FnSim w u (all, none) s0 τ s' ∧
      printed s'.trace = printed s.trace ++ τ.said.map fun t => ((s0.fds.get 1).map FdE.chan, t) := by
  rw [readStartup_run]
  have h' : FnSim w u (all, none) s0 σ (did s (.readFile p)) := h.quiet rfl rfl
  obtain ⟨t, ht, hp⟩ := hf
  obtain ⟨cc, o, s2, b0, b1, b2, b3, b4⟩ := fn_line S n h' hok hr hb
  unfold FnEnds at b2
  obtain ⟨m, hs⟩ := hs
  rw [hs] at b2
  subst b2
  refine ⟨s2, ?_, b3, by rw [b4]; simp [did, printed]⟩
  rw [ht]
  unfold startupBody
  simp only [hp, b0]
  rw [run_bind_ok (run_tryE_err b1)]
  rfl

theorem start_files_stop {w : World} {u : FnWorld} {b : Origin} {lines : List FnLine} (ok : OriginOk w u b lines)
    {all : List WRes} {s0 : Sh} (S : FnSetting w u s0) (hok : ∀ l ∈ b.starting ++ lines, FnLineOk w u s0 l) (n : Nat)
    {name : Str} {ps : List Str} {τ : FnState} {s : Sh} (h : FnSim w u (all, none) s0 (b.ref name ps) s)
    (hr : u.startFails n b name ps τ) (hb : Begins all τ.flat) :
    ∃ s', startFiles w (n + 1) s = (.panic .unwrap, s') ∧ FnSim w u (all, none) s0 τ s' ∧
      (SilentStart w b → printed s'.trace = printed s.trace ++
        (u.startTalk n b.starting (b.ref name ps)).map fun t => ((s0.fds.get 1).map FdE.chan, t)) := by
  obtain ⟨pre, l, post, σ, e, h1, hgo, h2, h3⟩ := hr
  have hl : FnLineOk w u s0 l := hok l (by rw [e]; simp)
  have hb1 : Begins all σ.flat := hb.before (fn_later_line h2)
  have hrc := ok.rc
  have hpr := ok.profile
  obtain ⟨m, h3'⟩ := h3
  have hlast : ∀ ks, u.startTalk n (l :: ks) σ = τ.said := fun ks => by simp [FnWorld.startTalk, h2, h3']
  have first : pre = [] → b.rc = some l → ∃ s', startFiles w (n + 1) s = (.panic .unwrap, s') ∧ FnSim w u (all, none) s0 τ s' ∧
      (SilentStart w b → printed s'.trace = printed s.trace ++
        (u.startTalk n b.starting (b.ref name ps)).map fun t => ((s0.fds.get 1).map FdE.chan, t)) := by
    rintro rfl hc
    cases h1
    rw [hc] at hrc
    obtain ⟨s', a1, a2, a3⟩ := start_file_stop S n hrc h hl h2 ⟨m, h3'⟩ hb
    exact ⟨s', run_bind_stop a1 (fun _ h => (nomatch h)) _, a2, fun _ => by rw [a3, e, List.nil_append, hlast]⟩
  have second : pre = b.rc.toList → b.profile = some l →
      ∃ s', startFiles w (n + 1) s = (.panic .unwrap, s') ∧ FnSim w u (all, none) s0 τ s' ∧
      (SilentStart w b → printed s'.trace = printed s.trace ++
        (u.startTalk n b.starting (b.ref name ps)).map fun t => ((s0.fds.get 1).map FdE.chan, t)) := by
    rintro rfl hc
    rw [hc] at hpr
    obtain ⟨s1, a2, a1, -, a3⟩ := start_file S n hrc h rfl (fun l hl => hok l (by simp [Origin.starting, hl])) h1 hb1
    obtain ⟨s', c1, c2, c3⟩ := start_file_stop S n hpr a2 hl h2 ⟨m, h3'⟩ hb
    refine ⟨s', by unfold startFiles; rw [run_bind_ok (a1 hgo)]; exact c1, c2, fun hq => ?_⟩
    rw [c3, a3 hq.1, e, startTalk_two u n _ _ rfl h1, if_neg (by rw [hgo]; simp), hlast, List.map_append, List.append_assoc]
  replace e : b.rc.toList ++ b.profile.toList = _ := e
  cases hc : b.rc with
  | none =>
    cases hd : b.profile with
    | none => rw [hc, hd] at e; simp at e
    | some p =>
      rw [hc, hd] at e
      cases pre with
      | nil => simp at e; exact second (by rw [hc]; rfl) (by rw [hd, e.1])
      | cons a pre => simp at e
  | some r =>
    cases pre with
    | nil => rw [hc] at e; simp at e; exact first rfl (by rw [hc, e.1])
    | cons a pre =>
      rw [hc] at e
      simp only [Option.toList_some, List.cons_append, List.nil_append, List.cons.injEq] at e
      cases hd : b.profile with
      | none => rw [hd] at e; simp at e
      | some p =>
        rw [hd] at e
        cases pre with
        | nil => simp at e; exact second (by rw [hc, e.1]; rfl) (by rw [hd, e.2.1])
        | cons a' pre => simp at e

/-- C167, with a script: a start-up file that fails crashes the shell.  Until then it does what the reference does, and
nothing else; the script is not even read.  The shell itself writes what it says of its arguments and what `pwd` says
in the start-up files, but no message (on standard output) for the failure. -/
theorem C167_script (w : World) (u : FnWorld) (b : Origin) (lines : List FnLine) (ok : OriginOk w u b lines)
    (argv0 : Str) (rest : List Str) (hne : argv0 ≠ []) (hopt : ¬ (IsOption argv0 ∧ 'c' ∈ argv0)) (name : Str) (ps : List Str)
    (hi : invocation rest = .script name ps) (hname : name ≠ []) (hps : ∀ p ∈ ps, p ≠ [])
    (hargs : AllPassable 0 (name :: ps)) (n : Nat) (τ : FnState) (hr : u.startFails n b name ps τ)
    (left : List WRes) (hl : .eintr ∉ left) (k : Nat) (ins : List SessionIn) :
    ∃ s', mainM w (n + 1) k (argv0 :: rest) ins (b.sh (τ.reported ++ left)) = (.panic .unwrap, s') ∧
      Followed u b τ s' ∧ s'.waits = left ∧
      (SilentStart w b → WroteAll s' (argTalk w argv0 rest ++ u.startTalk n b.starting (b.ref name ps))) := by
  have harg : ∀ i a, ps[i]? = some a → PlainArg (i + 1) a := fun i a h => by
    have := allPassable_get hargs.2 i a h
    rw [Nat.add_comm] at this
    exact passable_plain this
  obtain ⟨s1, a1, -, -, a2, hpa, a3⟩ := main_script w (n + 1) k b.root b.ppid b.pid b.cwd b.env (τ.reported ++ left) argv0 rest ins
    hne hopt name ps hi hname (passable_plain hargs.1) hps harg
  obtain ⟨S, start, hok, hq⟩ := begun_sim ok a2 a1 hargs
  obtain ⟨s', e1, e2, e3⟩ := start_files_stop ok S hok n start hr ⟨left, rfl, hl⟩
  refine ⟨s', a3.trans (run_bind_stop e1 (fun _ h => (nomatch h)) _), e2.followed ?_ ?_ hq,
    List.append_cancel_left e2.waits, fun hq => ?_⟩
  rotate_left 2
  · have := wrote_all hne hopt a1 (c2 := s1.ctx) hpa (e3 hq) rfl (s4 := s') (y := []) (by simp)
    rwa [List.append_nil] at this
  · show s1.env = _
    rw [a1.rest]
    rfl
  · show ∀ g, s1.disp g = _ ↔ _
    rw [a1.rest]
    exact fun _ => .rfl

/-- C167, without a script: the same, interactive or with `-c`. -/
theorem C167_others (w : World) (u : FnWorld) (b : Origin) (lines : List FnLine) (ok : OriginOk w u b lines)
    (argv0 : Str) (rest : List Str) (hne : argv0 ≠ []) (hopt : ¬ (IsOption argv0 ∧ 'c' ∈ argv0))
    (hi : invocation rest = .interactive ∨ ∃ t, invocation rest = .program t ∧ parse t ≠ none) (n : Nat) (τ : FnState)
    (hr : u.startFails n b (cs!"rsh") [] τ) (left : List WRes) (hl : .eintr ∉ left) (k : Nat) (ins : List SessionIn) :
    ∃ s', mainM w (n + 1) k (argv0 :: rest) ins (b.sh (τ.reported ++ left)) = (.panic .unwrap, s') ∧
      Followed u b τ s' ∧ s'.waits = left ∧
      (SilentStart w b → WroteAll s' (argTalk w argv0 rest ++ u.startTalk n b.starting (b.ref (cs!"rsh") []))) := by
  obtain ⟨s0, m, a1, a2, a3, hpa, a4⟩ : ∃ s0, ∃ m : M Unit, Announced (b.sh (τ.reported ++ left)) s0 ∧
      s0.ctx = (b.sh (τ.reported ++ left)).ctx ∧ s0.scriptName = cs!"rsh" ∧
      (∃ r c, parseArgs w (argv0 :: rest) (b.sh (τ.reported ++ left)) = (.ok r, { s0 with ctx := c })) ∧
      mainM w (n + 1) k (argv0 :: rest) ins (b.sh (τ.reported ++ left)) =
        (do pushContextNew; setArg0; startFiles w (n + 1); m : M Unit) s0 := by
    rcases hi with hi | ⟨t, hi, hp⟩
    · obtain ⟨s0, a1, a2, -, a3, hpa, a4⟩ := C83_interactive w (n + 1) k b.root b.ppid b.pid b.cwd b.env (τ.reported ++ left) argv0
        rest ins hne hopt hi
      exact ⟨s0, _, a1, a2, a3, hpa, a4⟩
    · obtain ⟨s0, a1, a2, a3, -, hpa, a4⟩ := C83_program_partial w (n + 1) k (b.sh (τ.reported ++ left)) argv0 rest ins hne hopt t
        hi hp
      exact ⟨s0, _, a1, a2, by rw [a3]; rfl, hpa, a4⟩
  obtain ⟨c2, hrun, hb, ha⟩ := origin_begun w a1 a2 a3
  obtain ⟨S, start, hok, hq⟩ := begun_sim ok hb ha (by decide)
  obtain ⟨s', e1, e2, e3⟩ := start_files_stop ok S hok n start hr ⟨left, rfl, hl⟩
  refine ⟨s', ?_, e2.followed ?_ ?_ hq, List.append_cancel_left e2.waits, fun hq => ?_⟩
  rotate_left 3
  · have := wrote_all hne hopt a1 (c2 := c2) hpa (e3 hq) rfl (s4 := s') (y := []) (by simp)
    rwa [List.append_nil] at this
  · rw [a4]
    have : (do pushContextNew; setArg0; startFiles w (n + 1); m : M Unit) =
        ((do pushContextNew; setArg0 : M Unit) >>= fun _ => startFiles w (n + 1) >>= fun _ => m) := by
      simp only [bind_assoc]
    rw [this, run_bind_ok hrun]
    exact run_bind_stop e1 (fun _ h => (nomatch h)) _
  · show s0.env = _
    rw [a1.rest]
    rfl
  · show ∀ g, s0.disp g = _ ↔ _
    rw [a1.rest]
    exact fun _ => .rfl

/-! An example: `~/.rshrc` is as before, and `~/.profile` has a `cd` to a directory that does not exist. -/

/-- The line ` cd /nope ; make c`. -/
def Spec.fnFails : FnLine :=
  { first := .chain { first := .cd (.plain (cs!"/nope")) }
    rest := [.chain { first := .run ⟨cs!"make", [.plain (cs!"c")]⟩ [] }] }

/-- The outside world with these files. -/
def Spec.fnFilesFail : World :=
  demoWorld [(cs!"s", fnScript), (cs!"~/.rshrc", fnRc), (cs!"~/.profile", cs!"cd /nope\nmake c\n")]

/-- How the shell is started. -/
def Spec.fnOriginFails : Origin := { fnOrigin with profile := some fnFails }

theorem fnFails_ok : FnLineOk fnFilesFail fnWorld (fnOrigin.sh []) fnFails := by
  intro i hi
  simp only [fnFails, FnLine.items, List.mem_cons, List.not_mem_nil, or_false] at hi
  rcases hi with rfl | rfl <;> intro c hc t ht <;> rw [List.mem_singleton.1 hc] at ht <;> rw [List.mem_singleton.1 ht]
  · exact ⟨by decide, by decide, trivial⟩
  · intro e he
    rw [List.mem_singleton.1 he]
    refine ⟨by decide, by decide, by decide, by decide, unqualified_iff.2 rfl, ?_, fun p hp => ?_⟩
    · intro a ha
      rw [List.mem_singleton.1 ha]
      exact ⟨by decide, by decide, trivial⟩
    · cases hp
      exact demo_runnable (s := fnOrigin.sh []) (name := cs!"make") (by decide +kernel) (by decide) (by decide)

theorem fnOriginFails_ok : OriginOk fnFilesFail fnWorld fnOriginFails [] :=
  have ok : OriginOk fnFiles fnWorld fnOrigin [] := fnOrigin_ok (by simp)
  { env := ok.env
    values := ok.values
    rc := by
      obtain ⟨t, h1, h2⟩ := ok.rc
      cases h1 []
      exact ⟨fnRc, fun _ => rfl, h2⟩
    profile := ⟨_, fun _ => rfl, .trans rfl (parse_program (fn_line_program fnFails_ok)).symm⟩
    res := demo_resources _
    pids := fun _ => rfl
    inj := ok.inj
    dirs := fun _ _ _ => rfl
    texts := fun _ _ h => nomatch h
    files := fun _ _ h => nomatch h
    absent := fun _ h => nomatch h
    msgs := ⟨rfl, fun _ => rfl⟩
    lines := by
      intro l hl
      rw [List.append_nil] at hl
      simp only [Origin.starting, fnOriginFails, fnOrigin, Option.toList_some, List.cons_append, List.nil_append,
        List.mem_cons, List.not_mem_nil, or_false] at hl
      rcases hl with rfl | rfl
      · exact FnLineOk.rebase (w := fnFiles) (w' := fnFilesFail) (s := fnOrigin.sh []) (s' := fnOrigin.sh []) rfl rfl rfl rfl rfl
          (fun _ h => h) (ok.lines fnFirst (by simp [Origin.starting, fnOrigin]))
      · exact fnFails_ok }

/-- `make c` is not run. -/
example : ∃ τ s', fnWorld.startFails 2 fnOriginFails (cs!"rsh") [] τ ∧
    τ.ran = [⟨cs!"/", [], [[cs!"make", cs!"a"]], [], [], [false]⟩, ⟨cs!"/", [], [[cs!"make", cs!"b"]], [], [], [false]⟩] ∧
    mainM fnFilesFail 3 7 [cs!"rsh"] [.line (cs!"ls")] (fnOriginFails.sh τ.reported) = (.panic .unwrap, s') ∧
    Followed fnWorld fnOriginFails τ s' ∧ WroteAll s' [] := by
  obtain ⟨τ, hτ, h1⟩ : ∃ τ, fnWorld.startFails 2 fnOriginFails (cs!"rsh") [] τ ∧
      τ.ran = [⟨cs!"/", [], [[cs!"make", cs!"a"]], [], [], [false]⟩, ⟨cs!"/", [], [[cs!"make", cs!"b"]], [], [], [false]⟩] := by
    have : (((fnWorld.startUp 2 [fnFirst] (fnOriginFails.ref (cs!"rsh") [])).bind fun σ =>
        if σ.ended = none then fnWorld.line 2 σ fnFails else none).any
        fun τ => decide (τ.ran = [⟨cs!"/", [], [[cs!"make", cs!"a"]], [], [], [false]⟩, ⟨cs!"/", [], [[cs!"make", cs!"b"]], [], [], [false]⟩] ∧
          (match τ.stop with | some (.failed _) => true | _ => false) = true)) = true := by decide +kernel
    obtain ⟨τ, h1, h2⟩ := (Option.any_eq_true _ _).1 this
    obtain ⟨σ, h3, h4⟩ := Option.bind_eq_some_iff.1 h1
    have h2 := of_decide_eq_true h2
    split at h4
    · next hgo =>
      refine ⟨τ, ⟨[fnFirst], fnFails, [], σ, rfl, h3, hgo, h4, ?_⟩, h2.1⟩
      have h5 := h2.2
      split at h5
      · next m e => exact ⟨m, e⟩
      · cases h5
    · cases h4
  obtain ⟨s', a1, a2, -, a3⟩ := C167_others _ _ _ _ fnOriginFails_ok (cs!"rsh") [] (by decide) (by decide) (.inl rfl) 2 τ hτ []
    (by simp) 7 [.line (cs!"ls")]
  rw [List.append_nil] at a1
  refine ⟨τ, s', hτ, h1, a1, a2, ?_⟩
  have : argTalk fnFilesFail (cs!"rsh") [] ++ fnWorld.startTalk 2 fnOriginFails.starting (fnOriginFails.ref (cs!"rsh") []) = [] := by
    decide +kernel
  rw [← this]
  exact a3 ⟨nofun, nofun⟩

end Rsh
