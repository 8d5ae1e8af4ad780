import Verif.Props.Background
import Verif.Props.ExportWords

/-!
# Property C78: the calls of `fg` and `export` whose end depends on the reports of the kernel or on the words before
-/

namespace Rsh

open Spec

theorem waitForJob_hang (w : World) (id : Nat) {s : Sh} {j : Job} (hj : s.jc.getJob id = some j)
    (hrun : j.state = .running) (hw : s.waits = []) : (waitForJob w id s).1 = .hang := by
  unfold waitForJob doWait
  rw [run_bind, run_getS_bind, hj, unwrapM_some, run_pure_bind]
  simp only [hrun, decide_true, Bool.not_true, Bool.false_and, Bool.false_eq_true, if_false]
  unfold doWaitLoop
  rw [run_getS_bind]
  simp only [Bool.not_true, Bool.false_and, Bool.false_eq_true, if_false]
  unfold waitOne interruptsOff waitProcess
  simp only [bind_assoc, run_modS_bind, run_getS_bind]
  simp only [hw, List.length_nil, waitRetry]
  rfl

/-- C78, `fg` of a job that is there: the shell crashes exactly if one of the reports that are there to be collected cannot be
recorded; otherwise it is back at the prompt after them, or it waits for ever if no report ever comes. -/
theorem C78_fg (w : World) (n : Nat) (s : Sh) (hp : AtPrompt w s) (c : Call) (hc : c.Ok s)
    (hname : c.name = cs!"fg") (x : Str) (vs : List Str) (hx : c.values = x :: vs) (id : Nat) (hn : Names s x id)
    (j : Job) (hj : s.jc.getJob id = some j) (hk : ∀ tr, ∀ p ∈ j.processes, w.killOk tr p.pid = true) (ps4 : Str)
    (hps4 : valueOf s (cs!"PS4") = some ps4) (sts : List WStatus) (hb : Batch s.waits sts) :
    ((∃ k, (interactiveLine w (n + 1) c.text s).1 = .panic k) ↔ Crashing sts (resumed id s.jc.table) s.jc.current) ∧
    (¬ Crashing sts (resumed id s.jc.table) s.jc.current →
      (s.waits ≠ [] → (interactiveLine w (n + 1) c.text s).1 = .ok ()) ∧
      (s.waits = [] → (interactiveLine w (n + 1) c.text s).1 = .hang)) := by
  have hx' := fg_exact w n s hp c hc hname x vs hx id hn j hj hk ps4 hps4 sts hb
  have key : ¬ Crashing sts (resumed id s.jc.table) s.jc.current →
      (s.waits ≠ [] → (interactiveLine w (n + 1) c.text s).1 = .ok ()) ∧
      (s.waits = [] → (interactiveLine w (n + 1) c.text s).1 = .hang) := by
    intro hnc
    refine ⟨fun hne => ?_, fun he => ?_⟩
    · rcases reports_or_crashing sts (resumed id s.jc.table) s.jc.current with ⟨t', cur', h⟩ | h
      · obtain ⟨s', -, h, -⟩ := hx'.1 hne t' cur' h
        rw [h]
      · exact absurd h hnc
    · obtain ⟨e, -, hline⟩ := fg_line w n s hp c hc hname x vs hx id hn j hj hk
      rw [hline]
      have := waitForJob_hang w id (s := { s with
        masked := true
        jc := s.jc.modJob id fun j => { j with state := .running, background := false }
        trace := e :: ((j.processes.map fun p => Event.kill p.pid).reverse ++ s.trace) })
        (j := { j with state := .running, background := false })
        (by show (s.jc.modJob id _).getJob id = _; rw [getJob_modJob, if_pos rfl, hj]; rfl) rfl he
      revert this
      generalize ({ s with
        masked := true
        jc := s.jc.modJob id fun j => { j with state := .running, background := false }
        trace := e :: ((j.processes.map fun p => Event.kill p.pid).reverse ++ s.trace) } : Sh) = s0
      intro this
      unfold reportM
      rw [run_bind, run_tryE, run_bind]
      revert this
      generalize waitForJob w id s0 = r
      obtain ⟨o, s1⟩ := r
      rintro rfl
      rfl
  refine ⟨⟨fun ⟨k, h⟩ => ?_, fun h => ?_⟩, key⟩
  · by_cases hcr : Crashing sts (resumed id s.jc.table) s.jc.current
    · exact hcr
    · by_cases hw : s.waits = []
      · rw [(key hcr).2 hw] at h; cases h
      · rw [(key hcr).1 hw] at h; cases h
  · obtain ⟨s', h⟩ := hx'.2 h
    exact ⟨_, by rw [h]⟩

/-- `C78_fg` applies: the job continued exits, and the shell is back at the prompt. -/
example : (∃ k, (interactiveLine (demoWorld []) 20 (cs!" fg %1") (stoppedTwo (.exited 100 5))).1 = .panic k) ↔
    Crashing [.exited 100 5] (resumed 1 (stoppedTwo (.exited 100 5)).jc.table) (stoppedTwo (.exited 100 5)).jc.current := by
  obtain ⟨j, p, h1, h2, h3, h4⟩ := stoppedTwo_job (s := stoppedTwo (.exited 100 5)) (pid := 100) (by decide +kernel)
  exact (C78_fg (demoWorld []) 19 (stoppedTwo (.exited 100 5))
    (atPrompt_ok (by decide +kernel)) ⟨cs!"fg", [word (cs!"%1")]⟩ (stoppedTwo_fg _ (by decide +kernel)) rfl (cs!"%1") [] rfl 1
    (.inl ⟨by decide, by omega⟩) j h1 (fun _ _ _ => rfl) (cs!"+ ") (by decide +kernel) [.exited 100 5]
    (batch_eq (l := [.exited 100 5].map .st ++ [.err]) (by decide +kernel) (batch_all (by decide)))).1

/-- C78, `export` with several words: the shell crashes exactly if it does when they are typed in lines of their own, at one of
these lines; otherwise the shell goes on. -/
theorem C78_export (w : World) (n : Nat) (s : Sh) (a b : Part × Str) (bs : List (Part × Str))
    (hal : s.aliases.get (cs!"export") = none) (h : ∀ x ∈ a :: b :: bs, ExportArg x) :
    (∃ k, (interactiveLine w (n + 1) (exportText (a :: b :: bs)) s).1 = .panic k) ↔
      ((∃ k, (interactiveLine w (n + 1) (exportText [a]) s).1 = .panic k) ∨
        ∃ s' k, interactiveLine w (n + 1) (exportText [a]) s = (.ok (), s') ∧
          (interactiveLine w (n + 1) (exportText (b :: bs)) s').1 = .panic k) := by
  rw [C152_split_partial w n s a b bs hal h, run_bind]
  generalize interactiveLine w (n + 1) (exportText [a]) s = r
  obtain ⟨o, s'⟩ := r
  cases o <;> simp

/-- `C78_export` applies: the second word crashes the shell, the first does not. -/
example : (∀ x ∈ [(Part.assign (cs!"A") (.plain (cs!"1")), cs!"A=1"), (.arg (.single (cs!"=x")), cs!"=x")], ExportArg x) ∧
    (∃ k, (interactiveLine (demoWorld []) 20
      (exportText [(Part.assign (cs!"A") (.plain (cs!"1")), cs!"A=1"), (.arg (.single (cs!"=x")), cs!"=x")])
      (demoShell [])).1 = .panic k) := by
  have hp : ∀ {x : Str}, hasSub (cs!"-p") x = false → ¬ Occurs (cs!"-p") x := fun h h' => by
    have := (hasSub_iff ..).2 h'
    simp [h] at this
  refine ⟨?_, ?_⟩
  · intro x hx
    simp only [List.mem_cons, List.not_mem_nil, or_false] at hx
    rcases hx with rfl | rfl
    · exact ⟨by decide +kernel, rfl, fun _ => rfl, hp (by decide +kernel), by decide⟩
    · exact ⟨by decide +kernel, rfl, fun _ => rfl, hp (by decide +kernel), by decide⟩
  · have key : (match (interactiveLine (demoWorld []) 20
        (exportText [(Part.assign (cs!"A") (.plain (cs!"1")), cs!"A=1"), (.arg (.single (cs!"=x")), cs!"=x")])
        (demoShell [])).1 with | .panic _ => true | _ => false) = true := by decide +kernel
    revert key
    generalize (interactiveLine _ _ _ _).1 = o
    cases o with
    | panic k => exact fun _ => ⟨k, rfl⟩
    | _ => exact fun h => nomatch h

end Rsh
