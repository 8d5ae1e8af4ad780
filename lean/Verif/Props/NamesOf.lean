import Verif.Props.Wholes
import Verif.Props.Signals

/-!
# Properties C157 and C158: what a name stands for
-/

namespace Rsh

open Spec

/-! ## C157: functions named like builtins and programs -/

/-- Only `eval`, `source`, `.` and `export` evaluate command lists. -/
theorem callBuiltin_noRec (w : World) (rec rec' : List AndOr → M Int) {c : SimpleCommand}
    (h : c.name ∉ [cs!"eval", cs!"source", cs!".", cs!"export"]) : callBuiltin w rec c = callBuiltin w rec' c := by
  simp only [List.mem_cons, List.not_mem_nil, or_false, not_or] at h
  unfold callBuiltin
  simp only [h.1, h.2.1, h.2.2.1, h.2.2.2, or_false, if_false]

/-- C157 fails for the names of builtins, always: a line with a builtin that evaluates no text runs no body of a function,
whatever functions the shell has.  It needs no level of nesting, where a call of a function needs one
(`C157_call`). -/
theorem C157_builtinFirst (w : World) (n : Nat) (s : Sh) (c : Call) (hc : c.Ok s)
    (hn : c.name ∉ [cs!"eval", cs!"source", cs!".", cs!"export"]) :
    interactiveLine w (n + 1) c.text s = interactiveLine w 1 c.text s := by
  rw [Call.line w n hc, Call.line w 0 hc, callBuiltin_noRec w (evalFuel w n) (evalFuel w 0) hn]

/-- A call of a function needs such a level. -/
theorem C157_call (w : World) (s : Sh) (c : Call) (l : List AndOr) (h : FunCall c s l)
    (hb : Bindables c s) (hg : Good s.ctx) : (evalText w 1 c.text s).1 = .deep := by
  obtain ⟨io, hfun⟩ := h.function
  obtain ⟨m1, hrun, -⟩ :=
    call_entry (evalFuel w 0) (Call.simple c) { s with masked := true } l io hg hfun hb.plain hb.free
  rw [FunCall.line w 0 h]
  unfold callFunction
  rw [run_bind, run_bind, run_tryE, hrun, run_bind, run_tryE]
  rfl

/-- C157, the part that holds: a function hides the programs of its name.  Whatever programs there are, the call has the
effects of the body.  Missing: the names of builtins (`C157_builtinFirst`). -/
theorem C157_function_partial (w : World) (n : Nat) (s : Sh) (c : Call) (l : List AndOr) (hl : Program l)
    (h : FunCall c s l) (hb : Bindables c s) (hg : Good s.ctx) (hf : s.forked = false) :
    ∃ s1, Entered c s s1 ∧ s1.trace = s.trace ∧
      (evalText w (n + 1) c.text s).2.trace = (evalText w n (programText l) s1).2.trace ∧
      (evalText w (n + 1) c.text s).2.cwd = (evalText w n (programText l) s1).2.cwd := by
  obtain ⟨s1, h1, -, -, h2⟩ := C123_call w n s c l hl h hb hg hf
  refine ⟨s1, h1, by rw [h1.only], ?_⟩
  obtain ⟨h3, h4⟩ := h2 _ _ rfl
  by_cases ho : Continues (evalText w n (programText l) s1).1
  · obtain ⟨jc, e, -⟩ := h3 ho
    rw [e]
    exact ⟨rfl, rfl⟩
  · rw [h4 ho]
    exact ⟨rfl, rfl⟩

/-- C157 fails: after `cd() { pwd; }`, `cd` is still the builtin; a function `ls` hides the program. -/
theorem C157_counterexample :
    (demo [cs!"cd() { exit; }", cs!"cd /tmp"]).cwd = cs!"/tmp" ∧
    (demo [cs!"ls() { cd /tmp; }", cs!"ls"]).cwd = cs!"/tmp" ∧
    started (demo [cs!"ls() { cd /tmp; }", cs!"ls"]).trace = [] := by
  decide +kernel

/-- The hypotheses of `C157_builtinFirst` are met with a function of the same name. -/
example : let s := demo [cs!"cd() { pwd; }"]
    (s.ctx.getFunction (cs!"cd")).isSome = true ∧ (⟨cs!"cd", [word (cs!"/tmp")]⟩ : Call).Ok s := by
  refine ⟨by decide +kernel, by decide, by decide, by decide +kernel, by decide, ?_⟩
  intro a ha
  simp only [List.mem_singleton] at ha
  subst ha
  exact means_word (by decide)

/-! ## C158: jobs have several names -/

/-- C158: `fg` and `bg` with any two names of a job, its number or the pid of one of its processes, do exactly the same. -/
theorem C158_names (w : World) (n : Nat) (s : Sh) (c d : Call) (hc : c.Ok s) (hd : d.Ok s) (hsame : d.name = c.name)
    (hname : c.name = cs!"fg" ∨ c.name = cs!"bg") (x y : Str) (vs us : List Str) (hx : c.values = x :: vs)
    (hy : d.values = y :: us) (id : Nat) (hxn : Names s x id) (hyn : Names s y id) (j : Job)
    (hj : s.jc.getJob id = some j) : interactiveLine w (n + 1) c.text s = interactiveLine w (n + 1) d.text s := by
  rw [Call.line w n hc, Call.line w n hd]
  have key : ∀ (e : Call), e.name = c.name → ∀ (z : Str) (ts : List Str), e.values = z :: ts → Names s z id →
      callBuiltin w (evalFuel w n) (Call.simple e) { s with masked := true } =
        (do
          if c.name = cs!"fg" then
            resume w j false
            let _ ← waitForJob w j.jobId
          else
            resume w j true
          interruptsOn : M Unit) { s with masked := true } := by
    intro e he z ts hz hzn
    have : callBuiltin w (evalFuel w n) (Call.simple e) = bFgBg w (Call.simple e) := by
      rcases hname with h | h
      · exact callBuiltin_fg w _ (he.trans h)
      · exact callBuiltin_bg w _ (he.trans h)
    rw [this]
    unfold bFgBg Call.simple interruptsOff
    rw [hz, run_modS_bind, he]
    exact names_find (s1 := { s with masked := true }) rfl hzn hj c.name ts (fun j => do
      if c.name = cs!"fg" then
        resume w j false
        let _ ← waitForJob w j.jobId
      else
        resume w j true
      interruptsOn : Job → M Unit)
  unfold reportM
  rw [run_bind, run_bind, run_tryE, run_tryE, key c rfl x vs hx hxn, key d hsame y us hy hyn]

/-- The hypotheses of `C158_names` are met after a job was stopped. -/
example : let s := atPrompt [cs!"a x"] [.st (.stopped 100 20)]
    (⟨cs!"bg", [word (cs!"%1")]⟩ : Call).Ok s ∧ (⟨cs!"bg", [word (cs!"100")]⟩ : Call).Ok s ∧ Names s (cs!"%1") 1 ∧
    Names s (cs!"100") 1 ∧ (s.jc.getJob 1).map Job.state = some .stopped := by
  refine ⟨⟨by decide, by decide, by decide +kernel, by decide, ?_⟩, ⟨by decide, by decide, by decide +kernel, by decide, ?_⟩,
    .inl ⟨by decide, by omega⟩, .inr ⟨100, by decide, by omega, by decide +kernel⟩, by decide +kernel⟩
  · intro a ha
    simp only [List.mem_singleton] at ha
    subst ha
    exact means_word (by decide)
  · intro a ha
    simp only [List.mem_singleton] at ha
    subst ha
    exact means_word (by decide)

end Rsh
