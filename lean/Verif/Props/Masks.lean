import Verif.Props.Crash
import Verif.Props.Sessions
import Verif.Props.Signals

/-!
# Property C53 for `fg` and `bg`, property C78 for `eval`
-/

namespace Rsh

open Spec

theorem noErr_contAll (w : World) (ps : List Process) : NoErr (contAll w ps) := by
  induction ps with
  | nil => exact .pure _
  | cons p ps ih =>
    unfold contAll
    exact .bind .getS fun s => .ite (.bind (.modS _) fun _ => ih) (.panicM _)

theorem noErr_resume (w : World) (j : Job) (b : Bool) : NoErr (resume w j b) := by
  unfold resume
  exact .bind .getS fun s => .ite (.panicM _) (.bind (.modS _) fun _ => .bind (noErr_contAll w _) fun _ => fun _ _ _ h => (nomatch h))

/-- C53, `fg` and `bg`: if the prompt comes back, signals are let through again exactly if the argument designates a
job.  If it does not, nothing has happened but that this was reported. -/
theorem C53_fgbg (w : World) (n : Nat) (s s' : Sh) (c : Call) (hc : c.Ok s) (hn : c.name = cs!"fg" ∨ c.name = cs!"bg")
    (h : interactiveLine w (n + 1) c.text s = (.ok (), s')) :
    (s'.masked = false ↔ ∃ v j, c.values.head? = some v ∧ Designates s v j) ∧
    (s'.masked = true → ∃ msg, s' = { s with
      masked := true
      trace := .print ((s.fds.get 1).map FdE.chan) (msg ++ ['\n']) :: s.trace }) := by
  rw [Call.line w n hc] at h
  have key : ∀ f : Job → M Unit, (∀ j, NoErr (f j)) → callBuiltin w (evalFuel w n) (Call.simple c) { s with masked := true } =
      (do let (id, ty) ← fgbgId (Call.simple c); let j ← findJob id ty; (do f j; interruptsOn) : M Unit) { s with masked := true } →
      (s'.masked = false ↔ ∃ v j, c.values.head? = some v ∧ Designates s v j) ∧
      (s'.masked = true → ∃ msg, s' = { s with
        masked := true
        trace := .print ((s.fds.get 1).map FdE.chan) (msg ++ ['\n']) :: s.trace }) := by
    intro f hf e
    rcases fgbg_job { s with masked := true } (c := Call.simple c) (vs := c.values) rfl (fun j => do f j; interruptsOn) with
      ⟨-, k, h2⟩ | ⟨v, vs', hv, -, h2, e3, h3⟩ | ⟨v, vs', j, hv, -, h2, h3⟩
    · rw [← e] at h2
      have := report_panic h2
      rw [h] at this
      cases this
    · rw [← e] at h3
      rw [reportM_err h3] at h
      cases h
      refine ⟨⟨fun h => (nomatch h), ?_⟩, fun _ => ⟨e3, rfl⟩⟩
      rintro ⟨v', j, h4, h5⟩
      rw [hv] at h4
      cases h4
      exact (h2 j (designates_congr (s := s) rfl h5)).elim
    · rw [← e] at h3
      have hne : NoErr (do f j; interruptsOn : M Unit) := .bind (hf j) fun _ => noErr_interruptsOn
      have hm : s'.masked = false := by
        unfold reportM at h
        rw [run_bind, run_tryE, h3] at h
        rcases e1 : (do f j; interruptsOn : M Unit) { s with masked := true } with ⟨o, s1⟩
        rw [e1] at h
        cases o with
        | ok a =>
          cases h
          obtain ⟨_, s2, -, h5⟩ := bind_ok_iff.1 e1
          cases h5
          rfl
        | err m => exact absurd e1 (hne _ _ _)
        | _ => cases h
      exact ⟨⟨fun _ => ⟨v, j, by rw [hv]; rfl, designates_congr (s := { s with masked := true }) rfl ((h2 j).2 rfl)⟩, fun _ => hm⟩,
        fun h => by rw [hm] at h; cases h⟩
  have hname : (Call.simple c).name = c.name := rfl
  rcases hn with hn | hn
  · refine key (fun j => do resume w j false; let _ ← waitForJob w j.jobId)
      (fun j => .bind (noErr_resume w j _) fun _ => .bind (noErr_waitForJob w _) fun _ => .pure _) ?_
    rw [callBuiltin_fg w _ (hname.trans hn)]
    unfold bFgBg
    simp only [hname, hn, if_true, bind_assoc]
    rfl
  · refine key (fun j => resume w j true) (fun j => noErr_resume w j _) ?_
    rw [callBuiltin_bg w _ (hname.trans hn)]
    unfold bFgBg
    simp only [hname, hn, show ¬ (cs!"bg" = cs!"fg") by decide, if_false]
    rfl

/-- Both cases occur: `bg %1` with a stopped job, and without one. -/
example : (demo [cs!"a &", cs!"bg %1"]).masked = false ∧ (demo [cs!"bg %1"]).masked = true ∧
    outcome (demoOut [cs!"a &", cs!"bg %1"]) = .ok := by decide +kernel

/-- The hypotheses are met. -/
example : (⟨cs!"bg", [word (cs!"%1")]⟩ : Call).Ok (demoShell []) ∧
    (∃ s', interactiveLine (demoWorld []) 20 (⟨cs!"bg", [word (cs!"%1")]⟩ : Call).text (demoShell []) = (.ok (), s')) := by
  refine ⟨⟨by decide, by decide, by decide +kernel, by decide, by
      intro a ha
      simp only [List.mem_cons, List.not_mem_nil, or_false] at ha
      subst ha
      exact means_word (by decide)⟩, ?_⟩
  obtain ⟨a, ha⟩ := outcome_ok (show outcome (interactiveLine (demoWorld []) 20 (⟨cs!"bg", [word (cs!"%1")]⟩ : Call).text
    (demoShell [])).1 = .ok by decide +kernel)
  exact ⟨_, Prod.ext ha rfl⟩

theorem reported_panic {r : Out Int × Sh} {r' : Out Unit × Sh} (h : Reported r r') : (∃ k, r'.1 = .panic k) ↔ ∃ k, r.1 = .panic k := by
  obtain ⟨o, s1⟩ := r
  cases o with
  | err m =>
    obtain ⟨msg, h1⟩ := h
    rw [h1]
    exact ⟨fun ⟨_, h⟩ => (nomatch h), fun ⟨_, h⟩ => (nomatch h)⟩
  | panic k => simp only [Reported] at h; rw [h]; exact ⟨fun ⟨k, h⟩ => ⟨k, by cases h; rfl⟩, fun ⟨k, h⟩ => ⟨k, by cases h; rfl⟩⟩
  | _ => simp only [Reported] at h; rw [h]; exact ⟨fun ⟨_, h⟩ => (nomatch h), fun ⟨_, h⟩ => (nomatch h)⟩

/-- C78, `eval`: it crashes the shell exactly if it has no argument, or if its first argument, typed as a line, does. -/
theorem C78_eval (w : World) (n : Nat) (s : Sh) (c : Call) (hc : c.Ok s) (hn : c.name = cs!"eval") :
    (∃ k, (interactiveLine w (n + 1) c.text s).1 = .panic k) ↔
      (c.values = [] ∨ ∃ v k, c.values.head? = some v ∧ (evalText w n (v ++ ['\n']) { s with masked := true }).1 = .panic k) := by
  rcases hv : c.values with _ | ⟨v, vs⟩
  · simp only [true_or, iff_true]
    rw [Call.line w n hc]
    refine ⟨.index, report_panic ?_⟩
    rw [callBuiltin_eval _ _ (show (Call.simple c).name = _ from hn)]
    unfold bEval Call.simple
    rw [hv]
    rfl
  · have key : Reported (evalText w n (v ++ ['\n']) { s with masked := true }) (interactiveLine w (n + 1) c.text s) := by
      rw [Call.line w n hc, callBuiltin_eval _ _ (show (Call.simple c).name = _ from hn)]
      have := reported_text w n (v ++ ['\n']) { s with masked := true } (cs!"Error parsing file: " ++ ·)
        (cs!"Error evaluating string: " ++ ·)
      unfold bEval Call.simple
      simp only [hv]
      exact this
    simp only [List.cons_ne_nil, false_or, List.head?_cons, Option.some.injEq]
    rw [reported_panic key]
    exact ⟨fun ⟨k, h⟩ => ⟨v, k, rfl, h⟩, fun ⟨_, k, rfl, h⟩ => ⟨k, h⟩⟩

/-- Both directions are met: `eval cd` crashes, `eval pwd` does not. -/
example : outcome (demoOut [cs!"eval cd"]) ≠ .ok ∧ outcome (demoOut [cs!"eval pwd"]) = .ok := by decide +kernel

theorem sourced_exists (w : World) (s : Sh) (name : Str) (h : '/' ∈ name ∨ pathOf s ≠ none) : ∃ file, Sourced w s name file := by
  by_cases hs : '/' ∈ name
  · exact ⟨name, .inl ⟨hs, rfl⟩⟩
  · rcases hp : pathOf s with _ | path
    · exact absurd hp (h.resolve_left hs)
    · by_cases hf : ∀ ds, Lists path ds → ∀ d ∈ ds, w.isFile s.trace (d ++ '/' :: name) = false
      · exact ⟨name, .inr ⟨hs, path, hp, .inr ⟨hf, rfl⟩⟩⟩
      · obtain ⟨ds, hds⟩ := Classical.not_forall.1 hf
        obtain ⟨hl, hds⟩ := Classical.not_imp.1 hds
        have hsome : (ds.find? fun d => w.isFile s.trace (d ++ '/' :: name)).isSome = true := by
          rw [List.find?_isSome]
          refine Classical.byContradiction fun hn => hds fun d hd => ?_
          cases e : w.isFile s.trace (d ++ '/' :: name) with
          | false => rfl
          | true => exact absurd ⟨d, hd, e⟩ hn
        obtain ⟨d, hd⟩ := Option.isSome_iff_exists.1 hsome
        obtain ⟨h1, pre, post, rfl, h3⟩ := List.find?_eq_some_iff_append.1 hd
        exact ⟨d ++ '/' :: name, .inr ⟨hs, path, hp, .inl ⟨pre, d, post, hl, rfl, h1, fun x hx => by simpa using h3 x hx⟩⟩⟩

/-- C78, `source` and `.` with one argument: they crash the shell exactly if the argument is to be looked for in `PATH` and there is none,
or the file is no text, or its text, typed as a line, crashes the shell. -/
theorem C78_source (w : World) (n : Nat) (s : Sh) (c : Call) (hc : c.Ok s)
    (hn : c.name = cs!"source" ∨ c.name = cs!".") (name : Str) (hv : c.values = [name]) :
    (∃ k, (interactiveLine w (n + 1) c.text s).1 = .panic k) ↔
      (('/' ∉ name ∧ pathOf s = none) ∨ ∃ file, Sourced w s name file ∧ (w.readFile s.trace file = .notUtf8 ∨
        ∃ t k, w.readFile s.trace file = .text t ∧
          (evalText w n t { s with masked := true, trace := .readFile file :: s.trace }).1 = .panic k)) := by
  by_cases hp : '/' ∉ name ∧ pathOf s = none
  · refine iff_of_true ?_ (.inl hp)
    have hcall : callBuiltin w (evalFuel w n) (Call.simple c) = bSource w (evalFuel w n) (Call.simple c) := by
      rcases hn with h | h
      · exact callBuiltin_source _ _ h
      · exact callBuiltin_dot _ _ h
    rw [Call.line w n hc, hcall]
    refine ⟨.unwrap, report_panic ?_⟩
    unfold bSource
    rw [show (Call.simple c).words = [name] from hv]
    simp only [sourceArgs, run_pure_bind]
    rw [if_neg (by rw [hasChar_iff]; exact hp.1)]
    have hl : lookupCommandM w name { s with masked := true } = (.panic .unwrap, { s with masked := true }) := by
      unfold lookupCommandM
      rw [run_getS_bind, lookupCommand_path, show pathOf { s with masked := true } = none from hp.2]
      rfl
    rw [run_bind, hl]
  · have hf : ∀ {file}, Sourced w s name file → ((∃ k, (interactiveLine w (n + 1) c.text s).1 = .panic k) ↔
        (w.readFile s.trace file = .notUtf8 ∨ ∃ t k, w.readFile s.trace file = .text t ∧
          (evalText w n t { s with masked := true, trace := .readFile file :: s.trace }).1 = .panic k)) := by
      intro file hfile
      rw [source_after n hc hn hv (s1 := { s with masked := true }) rfl (by exact hfile)]
      rcases hread : w.readFile s.trace file with _ | _ | t
      · simp only
        refine iff_of_false ?_ ?_
        · rintro ⟨k, h⟩; cases h
        · rintro (h | ⟨_, _, h, _⟩) <;> cases h
      · exact iff_of_true ⟨_, rfl⟩ (.inl rfl)
      · have key := reported_text w n t { s with masked := true, trace := .readFile file :: s.trace } (cs!"Error parsing file: " ++ ·)
          (cs!"Error evaluating string: " ++ ·)
        refine (reported_panic key).trans ⟨fun ⟨k, h⟩ => .inr ⟨t, k, rfl, h⟩, ?_⟩
        rintro (h | ⟨_, k, h, h1⟩)
        · cases h
        · cases h; exact ⟨k, h1⟩
    obtain ⟨file, hfile⟩ := sourced_exists w s name (by
      by_cases h1 : '/' ∈ name
      · exact .inl h1
      · exact .inr fun h2 => hp ⟨h1, h2⟩)
    constructor
    · exact fun h => .inr ⟨file, hfile, (hf hfile).1 h⟩
    · rintro (h | ⟨file', h1, h2⟩)
      · exact absurd h hp
      · exact (hf h1).2 h2

/-- Sourcing a file whose text crashes the shell, crashes it; any other file does not. -/
example : outcome (demoOut [cs!"source /f"] [] [(cs!"/f", cs!"cd\n")]) ≠ .ok ∧
    outcome (demoOut [cs!"source /f"] [] [(cs!"/f", cs!"pwd\n")]) = .ok ∧ outcome (demoOut [cs!"source /g"]) = .ok := by decide +kernel

end Rsh
