import Verif.Proofs.Started
import Verif.Spec.Demo
import Verif.Props.Context

/-!
# Every program the shell starts

Statements about whole runs of the shell, from its start or from any moment on: all programs it starts, at
the prompt, from scripts, start-up files, functions, substitutions and nested copies of itself.
-/

namespace Rsh

open Spec

/-- What happens in a run that begins in state `s`: the programs started from then on, down to every child of every
child, and the one the shell itself turns into. -/
def Spec.StartedIn (s : Sh) (r : Out α × Sh) (img : ExecImage) : Prop :=
  (∃ new, r.2.trace = new ++ s.trace ∧ img ∈ programs new) ∨ r.1 = .execed img

theorem startedIn_main {root : Bool} {ppid pid : Nat} {cwd : Str} {env : AMap Str} {waits : List WRes}
    {r : Out α × Sh} {img : ExecImage} (h : Runs r img) :
    StartedIn (initSh root ppid pid cwd env waits) r img := by
  rcases h with h | h
  · exact .inl ⟨r.2.trace, by simp [initSh], h⟩
  · exact .inr h

theorem safe_started {E : Par} {m : M α} (hm : Safe E m) {s : Sh} (h1 : E.env s.env)
    (h2 : ∀ g, g ∉ handledSignals → s.disp g = E.disp g) {img : ExecImage} (hi : StartedIn s (m s) img) :
    Started E img := by
  have h := hm s.trace s ⟨⟨[], rfl, fun _ hi => nomatch hi⟩, h1, h2⟩
  rcases hi with ⟨new, hn, hi⟩ | hi
  · obtain ⟨new', hn', hp⟩ := h.1.trace
    rw [hn] at hn'
    rw [List.append_cancel_right hn'] at hi
    obtain ⟨e, he, hi⟩ := mem_programs.1 hi
    exact (hp e he).programs img hi
  · exact h.2 img hi

/-- The parameters for the start of the shell. -/
def startPar (env : AMap Str) : Par where
  env e := (∀ k, (env.get k).isSome → (e.get k).isSome) ∧ (WellFormedEnv env → WellFormedEnv e)
  disp g := if g = SIGPIPE then .ign else .dfl
  closed e k v h1 h2 h3 h4 h := by
    refine ⟨fun x hx => ?_, fun hw p hp => ?_⟩
    · rw [AMap.get_insert]
      split
      · rfl
      · exact h.1 x hx
    · rcases List.mem_cons.1 hp with rfl | hp
      · exact ⟨h1, h2, h3, h4⟩
      · exact h.2 hw p (List.mem_filter.1 hp).1

/-- The parameters for a name of the environment at some moment. -/
def namePar (x : Str) (disp : Nat → Disp) : Par where
  env e := (e.get x).isSome
  disp := disp
  closed e k v _ _ _ _ h := by
    rw [AMap.get_insert]
    split
    · rfl
    · exact h

theorem main_started (w : World) (n k : Nat) (args : List Str) (ins : List SessionIn) (root : Bool) (ppid pid : Nat)
    (cwd : Str) (env : AMap Str) (waits : List WRes) (img : ExecImage)
    (h : Runs (mainM w n k args ins (initSh root ppid pid cwd env waits)) img) : Started (startPar env) img :=
  safe_started (E := startPar env) (Safe.mainM n k args ins) ⟨fun _ h => h, fun h => h⟩ (fun _ _ => rfl) (startedIn_main h)

/-- A session with a line that starts a program, in an environment of two variables. -/
def Spec.demoMain (ins : List SessionIn) : Out Unit × Sh :=
  mainM (demoWorld []) 10 7 [cs!"rsh"] ins
    (initSh false 1 2 (cs!"/") [(cs!"PATH", cs!"/bin"), (cs!"HOME", cs!"/home")] [.st (.exited 100 0)])

/-! ## C90 -/

/-- C90, for every program of every run (interactive, of a script or of `rsh -c`): it starts with no signal blocked
and with the default reaction to every signal but SIGPIPE.  Missing: SIGPIPE. -/
theorem C90_every_partial (w : World) (n k : Nat) (args : List Str) (ins : List SessionIn) (root : Bool)
    (ppid pid : Nat) (cwd : Str) (env : AMap Str) (waits : List WRes) (img : ExecImage)
    (h : Runs (mainM w n k args ins (initSh root ppid pid cwd env waits)) img) :
    img.masked = false ∧ ∀ g, g ≠ 13 → img.disp g = .dfl := by
  have hs := main_started w n k args ins root ppid pid cwd env waits img h
  refine ⟨hs.unmasked, fun g hg => ?_⟩
  rw [hs.disp]
  show (if g ∈ handledSignals ∨ (if g = 13 then Disp.ign else .dfl) = .catch then Disp.dfl
    else if g = 13 then .ign else .dfl) = _
  simp [hg]

/-- C90 is false for every program of every run: it ignores SIGPIPE. -/
theorem C90_sigpipe_every (w : World) (n k : Nat) (args : List Str) (ins : List SessionIn) (root : Bool)
    (ppid pid : Nat) (cwd : Str) (env : AMap Str) (waits : List WRes) (img : ExecImage)
    (h : Runs (mainM w n k args ins (initSh root ppid pid cwd env waits)) img) : img.disp 13 = .ign := by
  rw [(main_started w n k args ins root ppid pid cwd env waits img h).disp]
  rfl

example : (programs (demoMain [.line (cs!"ls \"$(cat b)\"")]).2.trace).map ExecImage.argv =
    [[cs!"ls", cs!"b"], [cs!"cat", cs!"b"]] := by decide +kernel

example : outcome (demoMain [.line (cs!"exec ls a")]).1 = .execed (cs!"/bin/ls") [cs!"ls", cs!"a"] := by decide +kernel

/-! ## C41 -/

/-- C41 fails for every name of the environment: nothing a session does (`unset` included) takes it out of the
environment of the programs started later; only `exec -c` starts a program without it, whose environment is empty. -/
theorem C41_environment (w : World) (n : Nat) (s : Sh) (x : Str) (hx : (s.env.get x).isSome) (ins : List SessionIn)
    (img : ExecImage) (h : StartedIn s (interactiveLoop w n ins s) img) :
    img.env = [] ∨ (img.env.get x).isSome :=
  (safe_started (E := namePar x s.disp) (Safe.interactiveLoop n ins) hx (fun _ _ => rfl) h).env

example : ((programs (demo [cs!"unset HOME", cs!"ls"] [.st (.exited 100 0)]).trace).map fun i => i.env.get (cs!"HOME")) =
    [some (cs!"/home")] := by decide +kernel

/-! ## C103 -/

theorem get_foldl_insert (env : AMap Str) (d : AMap Var) (hd : (env.map Prod.fst).Nodup) (x : Str) :
    (env.foldl (fun m p => m.insert p.1 { value := p.2 }) d).get x =
      match env.get x with
      | some v => some { value := v }
      | none => d.get x := by
  induction env generalizing d with
  | nil => rfl
  | cons p env ih =>
    obtain ⟨k, v⟩ := p
    simp only [List.map_cons, List.nodup_cons] at hd
    rw [List.foldl_cons, ih _ hd.2]
    by_cases h : x = k
    · subst h
      have : AMap.get env x = none := by
        unfold AMap.get
        rw [List.lookup_eq_none_iff]
        intro p hp
        simp only [bne_iff_ne, ne_eq]
        exact fun e => hd.1 (List.mem_map.2 ⟨p, hp, e.symm⟩)
      rw [this]
      simp only [AMap.get, List.lookup_cons, beq_self_eq_true]
      exact AMap.get_insert_self d x _
    · have hk : AMap.get ((k, v) :: env) x = AMap.get env x := by
        unfold AMap.get
        rw [List.lookup_cons]
        simp [beq_eq_false_iff_ne.2 h]
      rw [hk]
      cases AMap.get env x with
      | some u => rfl
      | none => exact AMap.get_insert_ne _ _ h

/-- The variables a shell has although they are not in its environment. -/
def Spec.defaults (root : Bool) (ppid pid : Nat) (cwd : Str) : List (Str × Str) :=
  [(cs!"PATH", cs!"/bin:/usr/local/sbin:/usr/local/bin:/usr/sbin:/usr/bin:/sbin:/bin"), (cs!"PWD", cwd),
    (cs!"PS1", if root then cs!"# " else cs!"$ "), (cs!"PS2", cs!"> "), (cs!"PS4", cs!"+ "),
    (cs!"PPID", natStr ppid), (cs!"PID", natStr pid)]

theorem init_var (root : Bool) (ppid pid : Nat) (cwd : Str) (env : AMap Str) (hd : (env.map Prod.fst).Nodup) (x : Str) :
    varIn (CtxMgr.init root ppid pid cwd env) x 0 =
      (match env.lookup x with
       | some v => some v
       | none => (defaults root ppid pid cwd).lookup x).map fun v => { value := v, readonly := false } := by
  show ((CtxMgr.init root ppid pid cwd env).heap 0).vars.get x = _
  simp only [CtxMgr.init, if_true, get_foldl_insert _ _ hd]
  have hl : env.lookup x = env.get x := rfl
  rw [hl]
  cases hg : env.get x with
  | some v => rfl
  | none =>
    have hi : ∀ (c : Prop) [Decidable c] (a b : AMap Var), AMap.get (if c then a else b) x =
        if c then a.get x else b.get x := by intro c _ a b; split <;> rfl
    have h0 : AMap.get ([] : AMap Var) x = none := rfl
    simp only [AMap.get_insert, hi, h0]
    by_cases h1 : x = cs!"PATH"
    · subst h1; simp +decide [hg, defaults]
    by_cases h2 : x = cs!"PWD"
    · subst h2; simp +decide [hg, defaults, List.lookup_cons]
    by_cases h3 : x = cs!"PS1"
    · subst h3; simp +decide [defaults, List.lookup_cons]
    by_cases h4 : x = cs!"PS2"
    · subst h4; simp +decide [defaults, List.lookup_cons]
    by_cases h5 : x = cs!"PS4"
    · subst h5; simp +decide [defaults, List.lookup_cons]
    by_cases h6 : x = cs!"PPID"
    · subst h6; simp +decide [defaults, List.lookup_cons]
    by_cases h7 : x = cs!"PID"
    · subst h7; simp +decide [defaults, List.lookup_cons]
    simp [h1, h2, h3, h4, h5, h6, h7, defaults, List.lookup_cons, beq_eq_false_iff_ne.2 h1, beq_eq_false_iff_ne.2 h2,
      beq_eq_false_iff_ne.2 h3, beq_eq_false_iff_ne.2 h4, beq_eq_false_iff_ne.2 h5, beq_eq_false_iff_ne.2 h6,
      beq_eq_false_iff_ne.2 h7]

/-- C103: when the shell starts, its variables are those of its environment, with the values they have there, and
for names that are not in the environment seven defaults; all of them can be assigned. -/
theorem C103_variables (root : Bool) (ppid pid : Nat) (cwd : Str) (env : AMap Str) (waits : List WRes)
    (hd : (env.map Prod.fst).Nodup) (x : Str) (hx : Unqualified x) :
    (initSh root ppid pid cwd env waits).ctx.getVar x =
      (match env.lookup x with
       | some v => some v
       | none => (defaults root ppid pid cwd).lookup x).map fun v => { value := v, readonly := false } := by
  show (CtxMgr.init root ppid pid cwd env).getVar x = _
  rw [CtxMgr.getVar_unqualified _ hx, ← init_var root ppid pid cwd env hd x]
  show [0].findSome? _ = _
  rw [List.findSome?_cons]
  cases varIn (CtxMgr.init root ppid pid cwd env) x 0 <;> rfl

example : ([(cs!"PATH", cs!"/bin"), (cs!"HOME", cs!"/home")].map Prod.fst).Nodup ∧ Unqualified (cs!"HOME") :=
  ⟨by decide +kernel, unqualified_iff.2 rfl⟩

/-- C103: each variable of the environment the shell was started with is in the environment of every program it
starts; only `exec -c` starts a program without it, whose environment is empty. -/
theorem C103_inherited (w : World) (n k : Nat) (args : List Str) (ins : List SessionIn) (root : Bool)
    (ppid pid : Nat) (cwd : Str) (env : AMap Str) (waits : List WRes) (img : ExecImage)
    (h : Runs (mainM w n k args ins (initSh root ppid pid cwd env waits)) img) :
    img.env = [] ∨ ∀ x, (env.get x).isSome → (img.env.get x).isSome :=
  (main_started w n k args ins root ppid pid cwd env waits img h).env.imp_right fun h => h.1

/-! ## C104 -/

/-- C104: every program is started with at least one argument, and neither in its path nor in its arguments nor in
its environment is there anything that the kernel could not pass on. -/
theorem C104_wellformed (w : World) (n k : Nat) (args : List Str) (ins : List SessionIn) (root : Bool)
    (ppid pid : Nat) (cwd : Str) (env : AMap Str) (henv : WellFormedEnv env) (waits : List WRes) (img : ExecImage)
    (h : Runs (mainM w n k args ins (initSh root ppid pid cwd env waits)) img) :
    img.argv ≠ [] ∧ (∀ a ∈ img.argv, '\x00' ∉ a) ∧ '\x00' ∉ img.path ∧ WellFormedEnv img.env := by
  have hs := main_started w n k args ins root ppid pid cwd env waits img h
  refine ⟨hs.argv, hs.args, hs.path, ?_⟩
  rcases hs.env with h | h
  · rw [h]; exact fun _ hp => nomatch hp
  · exact h.2 henv

example : WellFormedEnv [(cs!"PATH", cs!"/bin"), (cs!"HOME", cs!"/home")] := by decide +kernel

end Rsh
