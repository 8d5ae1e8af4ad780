import Verif.Proofs.Frame
import Verif.Spec.External

/-!
# Waiting starts nothing
-/

namespace Rsh

open Spec

/-- Only quiet events were added. -/
def Silent (s s' : Sh) : Prop := ∃ l, s'.trace = l ++ s.trace ∧ ∀ e ∈ l, Quiet e

namespace Silent

theorem of_eq {s s' : Sh} (h : s'.trace = s.trace) : Silent s s' := ⟨[], h, by simp⟩

theorem one {s s' : Sh} {e : Event} (h : s'.trace = e :: s.trace) (he : Quiet e) : Silent s s' :=
  ⟨[e], h, by simpa using he⟩

theorem trans {a b c : Sh} (h : Silent a b) (h' : Silent b c) : Silent a c := by
  obtain ⟨l, e, hl⟩ := h
  obtain ⟨l', e', hl'⟩ := h'
  refine ⟨l' ++ l, by rw [e', e, List.append_assoc], fun x hx => ?_⟩
  rcases List.mem_append.1 hx with h | h
  · exact hl' x h
  · exact hl x h

theorem seq : Seq Silent Silent where
  refl _ := of_eq rfl
  trans := trans
  rq h := h
  rqq := trans

end Silent

local notation "S" => Silent.seq

theorem silent_modS {f : Sh → Sh} (h : ∀ s, (f s).trace = s.trace) : Keeps Silent Silent (modS f) :=
  .modS fun s => .of_eq (h s)

theorem silent_waitpid : Keeps Silent Silent waitpidM := by
  intro s
  unfold waitpidM
  split
  · exact Silent.of_eq rfl
  · exact Silent.one (e := .waited _) rfl trivial

theorem silent_waitRetry (n : Nat) : Keeps Silent Silent (waitRetry n) := by
  induction n with
  | zero => exact .hangM S
  | succ n ih =>
    unfold waitRetry
    refine .bind S silent_waitpid fun r => ?_
    split
    · exact ih
    · exact .pure S _

theorem silent_printM (t : Str) : Keeps Silent Silent (printM t) :=
  .modS fun _ => Silent.one (e := .print _ _) rfl trivial

theorem silent_waitProcess : Keeps Silent Silent waitProcess :=
  .bind S (silent_modS fun _ => rfl) fun _ => .bind S (.getS S) fun _ => silent_waitRetry _

theorem silent_formatStatus (w : World) (st : WStatus) : Keeps Silent Silent (formatStatus w st) := by
  unfold formatStatus
  refine .bind S (.getS S) fun s => ?_
  have hx : ∀ (h : Held) x, Keeps Silent Silent (expandVar h x) := fun h x => by
    unfold expandVar
    exact .ite (.panicM S _) (.bind S (.getS S) fun _ => .pure S _)
  have hl : ∀ (pid : Int) (tail : Str), Keeps Silent Silent (match s.jc.getJobPid pid with
      | none => pure none
      | some j => do
        let ps4 ← (do unwrapM .unwrap (← expandVar .none (cs!"PS4")))
        pure (some (cs!"[" ++ natStr j.jobId ++ cs!"] " ++ ps4 ++ cs!"\t\t" ++ j.show ++ ' ' :: tail)) :
          M (Option Str)) := by
    intro pid tail
    split
    · exact .pure S _
    · exact .bind S (.bind S (hx _ _) fun _ => .unwrapM S _ _) fun _ => .pure S _
  dsimp only
  split
  · exact hl _ _
  · exact hl _ _
  · exact .pure S _

theorem silent_waitOne (w : World) (id : Nat) : Keeps Silent Silent (waitOne w id) := by
  unfold waitOne
  refine .bind S (silent_modS fun _ => rfl) fun _ => .bind S silent_waitProcess fun r => ?_
  cases r with
  | err => exact .pure S _
  | eintr => exact .pure S _
  | st st =>
    dsimp only
    refine .ite ?_ ?_
    · exact .bind S (silent_modS fun _ => rfl) fun _ => .pure S _
    · refine .bind S (.getS S) fun s => .bind S (.unwrapM S _ _) fun r => ?_
      refine .bind S (silent_modS fun _ => rfl) fun _ => .bind S (silent_modS fun _ => rfl) fun _ => ?_
      refine .ite ?_ (.pure S _)
      refine .bind S (silent_formatStatus w st) fun o => ?_
      cases o with
      | none => exact .pure S _
      | some t => exact .bind S (silent_printM _) fun _ => .pure S _

theorem silent_doWaitLoop (w : World) (id n : Nat) (b : Bool) : Keeps Silent Silent (doWaitLoop w id n b) := by
  induction n generalizing b with
  | zero => exact .hangM S
  | succ n ih =>
    unfold doWaitLoop
    refine .bind S (.getS S) fun s => ?_
    refine .ite ?_ ?_
    · exact .bind S (silent_modS fun _ => rfl) fun _ => .bind S (silent_modS fun _ => rfl) fun _ =>
        silent_modS fun _ => rfl
    · refine .bind S (silent_waitOne w id) fun o => ?_
      cases o
      · exact .pure S _
      · exact .pure S _
      · exact ih false

theorem silent_deleteJobM (id : Nat) : Keeps Silent Silent (deleteJobM id) :=
  .bind S (silent_modS fun _ => rfl) fun _ => .bind S (silent_modS fun _ => rfl) fun _ => silent_modS fun _ => rfl

theorem silent_waitForJob (w : World) (id : Nat) : Keeps Silent Silent (waitForJob w id) := by
  unfold waitForJob
  refine .bind S ?_ fun _ => .bind S (.getS S) fun s => .bind S (.unwrapM S _ _) fun j => ?_
  · unfold doWait
    refine .bind S (.getS S) fun s => .bind S (.unwrapM S _ _) fun j => ?_
    exact .ite (.pure S _) (silent_doWaitLoop w id _ _)
  · exact .ite (.bind S (silent_deleteJobM _) fun _ => .pure S _) (.pure S _)

theorem silent_waitForJobSigchld (w : World) (id : Nat) (st : WStatus) :
    Keeps Silent Silent (waitForJobSigchld w id st) := by
  unfold waitForJobSigchld
  refine .bind S (.getS S) fun s => .bind S (.unwrapM S _ _) fun j => ?_
  refine .ite ?_ ?_
  · exact .bind S (silent_modS fun _ => rfl) fun _ => .bind S (silent_deleteJobM _) fun _ => .pure S _
  · exact .bind S (silent_modS fun _ => rfl) fun _ => .bind S (silent_waitForJob w id) fun _ =>
      .bind S (silent_modS fun _ => rfl) fun _ => .pure S _

theorem silent_afterFork (w : World) (b : Bool) (id count : Nat) : Keeps Silent Silent (afterFork w b id count) := by
  unfold afterFork
  refine .ite (silent_deleteJobM _) (.ite ?_ ?_)
  · exact .bind S (.getS S) fun _ => .bind S (.unwrapM S _ _) fun _ => .bind S (.unwrapM S _ _) fun _ =>
      silent_printM _
  · refine .bind S (silent_waitForJob w id) fun st => .bind S (silent_deleteJobM _) fun _ => ?_
    split
    · exact silent_modS fun _ => rfl
    · exact .pure S _

theorem silent_post {s : Sh} {r : Out α × Sh} (h : Post Silent Silent s r) : Silent s r.2 := by
  obtain ⟨o, s'⟩ := r
  cases o <;> exact h

end Rsh
