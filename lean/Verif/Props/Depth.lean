import Verif.Proofs.Fuel
import Verif.Spec.Recursion
import Verif.Props.Functions
import Verif.Props.Startup

/-!
# Properties C101, C102: the depth of nested evaluation
-/

namespace Rsh

open Spec

/-! ## C101 -/

/-- C101: what a line does, at the prompt, in a script, in a start-up file and after `-c`, does not depend on
the room there is for nested evaluation, as long as there is enough: with more room it has the same
outcome and leaves the same state, with the same events. -/
theorem C101_line (w : World) (n m : Nat) (h : n ≤ m) (t : Str) (s : Sh) :
    ((interactiveLine w n t s).1 ≠ .deep → interactiveLine w m t s = interactiveLine w n t s) ∧
    ((scriptLine w n t s).1 ≠ .deep → scriptLine w m t s = scriptLine w n t s) ∧
    ((readStartup w n t s).1 ≠ .deep → readStartup w m t s = readStartup w n t s) ∧
    ((readFromArgs w n t s).1 ≠ .deep → readFromArgs w m t s = readFromArgs w n t s) :=
  ⟨fun hd => (Le.interactiveLine h t s).resolve_left hd, fun hd => (Le.scriptLine h t s).resolve_left hd,
   fun hd => (Le.readStartup h t s).resolve_left hd, fun hd => (Le.scriptLine h t s).resolve_left hd⟩

/-- C101 for a whole run of the shell, from its arguments to its end. -/
theorem C101_run (w : World) (n m k : Nat) (h : n ≤ m) (args : List Str) (ins : List SessionIn) (s : Sh)
    (hd : (mainM w n k args ins s).1 ≠ .deep) :
    mainM w m k args ins s = mainM w n k args ins s :=
  (Le.mainM h k args ins s).resolve_left hd

/-- Two levels are enough for a function that calls a program, one is not. -/
example : let s := demo [cs!"f() { a; }"] [.st (.exited 100 0)]
    outcome (interactiveLine (demoWorld []) 1 (cs!"f") s).1 = .deep ∧
    outcome (interactiveLine (demoWorld []) 2 (cs!"f") s).1 = .ok ∧
    started (interactiveLine (demoWorld []) 2 (cs!"f") s).2.trace = [[cs!"a"]] := by
  decide +kernel

/-! ## C102 -/

/-- A list whose first command runs out of depth does so too. -/
theorem firstOf_deep {w : World} {rec : List AndOr → M Int} {s : Sh} (a : AndOr)
    (h : (evalPipeline w rec (firstOf a) s).1 = .deep) : (evalAndOr w rec a s).1 = .deep := by
  fun_induction firstOf a with
  | case1 c p => unfold evalAndOr; exact h
  | case2 l c p ih =>
    have := ih h
    unfold evalAndOr
    rw [run_bind]
    rcases e : evalAndOr w rec l s with ⟨o, s1⟩
    rw [e] at this
    cases this
    rfl

theorem evalFuel_ring (w : World) (fs : List Str) (n : Nat) :
    ∀ (s : Sh) (l : List AndOr) (g : Str), Good s.ctx → Ring fs s → FirstCalls l g → g ∈ fs →
      (∀ b, s.ctx.getVar (cs!"0") = some b → b.readonly = false) → (evalFuel w n l s).1 = .deep := by
  induction n with
  | zero => intro s l g _ _ _ _ _; rfl
  | succ n ih =>
    rintro s _ g hg hr ⟨a, as, bang, rfl, ha⟩ hgf h0
    obtain ⟨l, io, hfun, g', hg', hl⟩ := hr.body g hgf
    have hc : FunCall ⟨g, []⟩ s l :=
      ⟨hr.external g hgf, hr.word g hgf, hr.alias g hgf, by simp, by simp,
        by simpa [Call.values] using (hr.name g hgf).1, ⟨io, hfun⟩⟩
    have hcall : (callFunction (evalFuel w n) (Call.simple ⟨g, []⟩) { s with masked := true }).1 = .deep := by
      obtain ⟨m1, hrun, hgood, -, hpar, -, hfn, -, -⟩ :=
        call_entry (evalFuel w n) (Call.simple ⟨g, []⟩) { s with masked := true } l io hg hfun
          (by
            intro i a hi
            rcases i with _ | i
            · obtain rfl : g = a := by simpa [callArgs, Call.simple] using hi
              exact (hr.name _ hgf).2
            · simp [callArgs, Call.simple, Call.values, SimpleCommand.words] at hi)
          (by
            intro i hi b hb
            obtain rfl : i = 0 := by simpa [Call.simple, Call.values, SimpleCommand.words] using hi
            exact h0 b hb)
      have hdeep : (evalFuel w n l { s with masked := true, ctx := m1 }).1 = .deep := by
        refine ih _ l g' hgood ⟨hr.word, hr.external, hr.alias, hr.name, fun f hf => ?_⟩ hl hg' ?_
        · obtain ⟨l2, io2, h2, h3⟩ := hr.body f hf
          exact ⟨l2, io2, (hfn f).trans h2, h3⟩
        · intro b hb
          have := hpar 0 g rfl
          have hb' : m1.getVar (natStr 0) = some b := hb
          rw [this] at hb'
          cases hb'
          rfl
      unfold callFunction
      rw [run_bind, run_tryE, hrun, run_bind, run_tryE]
      rcases e : evalFuel w n l { s with masked := true, ctx := m1 } with ⟨o, s1⟩
      rw [e] at hdeep
      cases hdeep
      rfl
    have hpipe : (evalPipeline w (evalFuel w n) (firstOf a) s).1 = .deep := by
      rw [ha]
      have := FunCall.pipeline w (evalFuel w n) hc bang
      have hcmd : (Call.cmd ⟨g, []⟩).command = ⟨none, g, none⟩ := rfl
      rw [hcmd] at this
      rw [this, run_bind]
      rcases e : callFunction (evalFuel w n) (Call.simple ⟨g, []⟩) { s with masked := true } with ⟨o, s1⟩
      rw [e] at hcall
      cases hcall
      rfl
    have := firstOf_deep a hpipe
    show (evalListFrom w (evalFuel w n) (-1) (a :: as) s).1 = .deep
    unfold evalListFrom
    rw [run_bind]
    rcases e : evalAndOr w (evalFuel w n) a s with ⟨o, s1⟩
    rw [e] at this
    cases this
    rfl

/-- C102: calling a function that begins by calling itself, directly or through others, never ends: whatever
room there is for nested evaluation, it is used up. -/
theorem C102_recursion (w : World) (n : Nat) (s : Sh) (hg : Good s.ctx)
    (h0 : ∀ b, s.ctx.getVar (cs!"0") = some b → b.readonly = false) (fs : List Str) (hr : Ring fs s) (c : Call)
    (hc : c.name ∈ fs) (ha : c.args = []) : (interactiveLine w n c.text s).1 = .deep := by
  obtain ⟨f, as⟩ := c
  cases ha
  have hok : (Call.cmd ⟨f, []⟩).Ok :=
    FunCall.cmd_ok (s := s) (l := (hr.body f hc).choose)
      ⟨hr.external f hc, hr.word f hc, hr.alias f hc, by simp, by simp, by simpa [Call.values] using (hr.name f hc).1,
        let ⟨io, h, _⟩ := (hr.body f hc).choose_spec; ⟨io, h⟩⟩
  have hl : (TPipe.line { first := Call.cmd ⟨f, []⟩ }).Ok := TCmd.line_ok hok
  have hp := parse_tline hl
  have hd : (evalFuel w n (TPipe.line { first := Call.cmd ⟨f, []⟩ }).tree s).1 = .deep :=
    evalFuel_ring w fs n s _ f hg hr ⟨_, [], false, rfl, rfl⟩ hc h0
  show (interactiveLine w n (TPipe.line { first := Call.cmd ⟨f, []⟩ }).text s).1 = .deep
  unfold interactiveLine
  rw [if_neg (TLine.text_ne hl), hp]
  simp only
  rw [run_bind, run_tryE]
  have he : evalTop w n (some (TPipe.line { first := Call.cmd ⟨f, []⟩ }).tree) =
      evalFuel w n (TPipe.line { first := Call.cmd ⟨f, []⟩ }).tree := rfl
  rw [he]
  rcases e : evalFuel w n (TPipe.line { first := Call.cmd ⟨f, []⟩ }).tree s with ⟨o, s1⟩
  rw [e] at hd
  cases hd
  rfl

/-- The function the commands begin by calling, if they do that. -/
def firstCall : List AndOr → Option Str
  | [] => none
  | a :: _ =>
    match firstOf a with
    | .mk _ [.simple ⟨none, g, none⟩] false => some g
    | _ => none

theorem firstCall_some {l : List AndOr} {g : Str} (h : firstCall l = some g) : FirstCalls l g := by
  unfold firstCall at h
  split at h
  · cases h
  · next a as =>
    split at h
    · next bang g' e =>
      cases h
      exact ⟨a, as, bang, rfl, e⟩
    · cases h

theorem ring_body {s : Sh} {f g : Str}
    (h : ((s.ctx.getFunction f).bind fun b => match b.cc with
      | .braceGroup l => firstCall l
      | _ => none) = some g) :
    ∃ l io, s.ctx.getFunction f = some ⟨.braceGroup l, io⟩ ∧ FirstCalls l g := by
  rcases e : s.ctx.getFunction f with _ | ⟨cc, io⟩
  · rw [e] at h; cases h
  · rw [e] at h
    cases cc with
    | braceGroup l => exact ⟨l, io, rfl, firstCall_some h⟩
    | unsupported => cases h

theorem demo_ok {o : Out Unit} (h : outcome o = .ok) : o = .ok () := by
  obtain ⟨_, h⟩ := outcome_ok h
  exact h

/-- Two functions as in `C102_recursion`. -/
example : let s := demo [cs!"f() { g; }", cs!"g() { f && a; b; }"]
    Ring [cs!"f", cs!"g"] s ∧ Good s.ctx ∧ (∀ b, s.ctx.getVar (cs!"0") = some b → b.readonly = false) ∧
    (Call.text ⟨cs!"f", []⟩) = cs!" f" := by
  refine ⟨⟨by decide, by decide, by decide +kernel, ?_, ?_⟩, demo_good _ _ _ (demo_ok (by decide +kernel)), ?_, by decide +kernel⟩
  · have key : ∀ c : Char, c = 'f' ∨ c = 'g' → '\x00' ∉ [c] ∧ PlainArg 0 [c] := by
      intro c hc
      refine ⟨?_, ?_, ?_, ?_, ?_, ?_⟩
      · rcases hc with rfl | rfl <;> decide
      · rcases hc with rfl | rfl <;> decide
      · rcases hc with rfl | rfl <;> decide
      · intro q hq t e
        have := congrArg List.length e
        simp at this
      · rcases hc with rfl | rfl <;> unfold LoneQuote <;> decide
      · rcases hc with rfl | rfl <;> decide
    intro f h
    rcases (by simpa using h : f = cs!"f" ∨ f = cs!"g") with rfl | rfl
    · exact key 'f' (.inl rfl)
    · exact key 'g' (.inr rfl)
  · intro f h
    rcases (by simpa using h : f = cs!"f" ∨ f = cs!"g") with rfl | rfl
    · obtain ⟨l, io, h1, h2⟩ := ring_body (f := cs!"f") (g := cs!"g")
        (s := demo [cs!"f() { g; }", cs!"g() { f && a; b; }"]) (by decide +kernel)
      exact ⟨l, io, h1, cs!"g", by decide, h2⟩
    · obtain ⟨l, io, h1, h2⟩ := ring_body (f := cs!"g") (g := cs!"f")
        (s := demo [cs!"f() { g; }", cs!"g() { f && a; b; }"]) (by decide +kernel)
      exact ⟨l, io, h1, cs!"f", by decide, h2⟩
  · intro b hb
    have : ((demo [cs!"f() { g; }", cs!"g() { f && a; b; }"]).ctx.getVar (cs!"0")).all (fun b => !b.readonly) = true := by
      decide +kernel
    rw [hb] at this
    simpa using this

end Rsh
