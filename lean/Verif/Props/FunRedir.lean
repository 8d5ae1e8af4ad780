import Verif.Proofs.BuiltinAny
import Verif.Props.Functions

/-!
# Property C156: redirections and assignments around a call of a function
-/

namespace Rsh

open Spec

/-- A call of a function typed with redirections and assignments around it; the values assigned have no variables in
them. -/
structure Spec.RCmd.Calls (c : RCmd) (s : Sh) (body : List AndOr) : Prop where
  redirs : ∀ r ∈ c.redirs, r.Ok
  assigns : ∀ a ∈ frontAssigns c.front, PlainWord a.1 ∧ a.2.Ok ∧ '$' ∉ a.2.text
  bare : FunCall c.bare s body

theorem callFunction_words (rec : List AndOr → M Int) (name : Str) (p p' : Option Prefix) (rs rs' : List IoRedirect)
    (vs : List Str) :
    callFunction rec ⟨p, name, some ⟨rs, vs⟩⟩ = callFunction rec ⟨p', name, some ⟨rs', vs⟩⟩ := by
  unfold callFunction evalFunction
  rfl

theorem RCmd.Calls.expand (w : World) (rec : List AndOr → M Int) {c : RCmd} {s : Sh} {l : List AndOr} (h : c.Calls s l) :
    ∃ p rs, expandCommand w rec c.tcmd.command s = (.ok ⟨p, c.name, some ⟨rs, c.bare.values⟩⟩, s) := by
  refine ⟨_, _, expandCommand_means w rec (c := c.tcmd.command) (name := c.name) (sf := c.tcmd.command.suffix)
    h.bare.word (backArgs c.back) ?_ ?_ ?_ h.bare.means⟩
  · refine (aliasLookup_none ?_).trans ?_
    · simpa [TCmd.command, RCmd.tcmd, Typed.text, RCmd.bare] using h.bare.alias
    · simp [TCmd.command, RCmd.tcmd, Typed.text]
  · simp only [TCmd.command, RCmd.tcmd, wordsOf_back]
    split
    · next e => rw [((back_nil c.back).1 (List.map_eq_nil_iff.1 e)).1]; rfl
    · rfl
  · intro p hp a ha
    unfold TCmd.command at hp
    by_cases e : c.tcmd.before = []
    · simp only [if_pos e] at hp
      cases hp
    · simp only [if_neg e] at hp
      cases hp
      simp only [RCmd.tcmd, wordsOf_front, List.mem_map] at ha
      obtain ⟨b, hb, rfl⟩ := ha
      exact assignText_noDollar (h.assigns b hb).1 (h.assigns b hb).2.2

theorem RCmd.Calls.pipeline (w : World) (rec : List AndOr → M Int) {c : RCmd} {s : Sh} {l : List AndOr}
    (h : c.Calls s l) (bang : Bool) :
    evalPipeline w rec (.mk bang [.simple c.tcmd.command] false) s =
      (do callFunction rec (Call.simple c.bare); afterCall : M Int) { s with masked := true } := by
  obtain ⟨p, rs, hx⟩ := RCmd.Calls.expand w rec (s := { s with masked := true }) (c := c) (l := l)
    ⟨h.redirs, h.assigns, FunCall.masked h.bare⟩
  have hargv : argvOf ⟨p, c.name, some ⟨rs, c.bare.values⟩⟩ = some (c.name :: c.bare.values) := by
    unfold argvOf
    simp only
    rw [if_neg]
    rw [List.any_eq_true]
    rintro ⟨v, hv, hn⟩
    exact h.bare.nul v hv (hasChar_iff.1 hn)
  have hnb : ¬ isBuiltin c.tcmd.command.name = true := by
    rw [isBuiltin_iff]
    simpa [TCmd.command, RCmd.tcmd, Typed.text, RCmd.bare] using h.bare.external
  have e1 : evalCommands w rec [.simple c.tcmd.command] { s with masked := true } =
      (.ok [({ pid := -1, argv := c.name :: c.bare.values, argv0 := c.name, cmd := c.name, status := none },
        ⟨p, c.name, some ⟨rs, c.bare.values⟩⟩)], { s with masked := true }) := by
    unfold evalCommands evalCommand evalSimple
    simp only
    rw [if_neg hnb, bind_assoc, run_bind_ok hx, hargv]
    rfl
  unfold evalPipeline
  rw [run_bind_ok (show interruptsOff s = (.ok (), { s with masked := true }) from rfl)]
  rw [run_bind_ok (show evalCommands w rec (Pipeline.seq (.mk bang [.simple c.tcmd.command] false)) _ = _ from e1)]
  obtain ⟨io, hf⟩ := h.bare.function
  simp only [List.isEmpty_cons, Bool.false_eq_true, if_false]
  show (runFunctions rec _ >>= _) _ = _
  have hisf : (Sh.ctx { s with masked := true }).isFunction c.name = true := isFunction_of_get hf
  unfold runFunctions
  rw [bind_assoc, run_getS_bind, if_pos hisf, bind_assoc, run_bind, run_bind,
    callFunction_words rec c.name p none rs [] c.bare.values,
    show (⟨none, c.name, some ⟨[], c.bare.values⟩⟩ : SimpleCommand) = Call.simple c.bare from rfl]
  rcases callFunction rec (Call.simple c.bare) { s with masked := true } with ⟨o, s1⟩
  cases o with
  | ok _ =>
    simp only
    unfold afterCall
    rw [bind_assoc, run_getS_bind, run_getS_bind]
    by_cases hfk : s1.forked = true
    · rw [if_pos hfk, if_pos hfk]
      rfl
    · rw [if_neg hfk, if_neg hfk]
      rfl
  | _ => rfl

/-! ## C156 -/

/-- C156 fails, always: redirections and assignments around a call of a function in the foreground change nothing: the
line behaves exactly as the call with its arguments alone, from every state of the shell. -/
theorem C156_ignored (w : World) (n : Nat) (s : Sh) (c : RCmd) (l : List AndOr) (hc : c.Calls s l) :
    evalText w (n + 1) c.text s = evalText w (n + 1) c.bare.text s := by
  have hok : c.tcmd.Ok := RCmd.tcmd_ok' hc.redirs (fun a ha => ⟨(hc.assigns a ha).1, (hc.assigns a ha).2.1⟩)
    hc.bare.word hc.bare.typed
  rw [FunCall.line w n hc.bare]
  show evalText w (n + 1) (TPipe.line { first := c.tcmd }).text s = _
  rw [evalText_pipe w n (p := { first := c.tcmd }) (TCmd.line_ok hok)]
  exact RCmd.Calls.pipeline w _ hc false

/-- C156, the part that holds: after the call the descriptors and variables of the shell are what they are after the call
alone.  Missing: they do not hold during the call either (`C156_ignored`, `C156_counterexample`). -/
theorem C156_restored_partial (w : World) (n : Nat) (s : Sh) (c : RCmd) (l : List AndOr) (hc : c.Calls s l) :
    (evalText w (n + 1) c.text s).2.fds = (evalText w (n + 1) c.bare.text s).2.fds ∧
    ∀ x, valueOf (evalText w (n + 1) c.text s).2 x = valueOf (evalText w (n + 1) c.bare.text s).2 x := by
  rw [C156_ignored w n s c l hc]
  exact ⟨rfl, fun _ => rfl⟩

/-- C156 fails: neither a redirection at the call nor one at the definition is obeyed, even one that must fail. -/
theorem C156_counterexample :
    (demo [cs!"f() { cd /tmp; }", cs!"f < /nope"]).cwd = cs!"/tmp" ∧
    (demo [cs!"f() { cd /tmp; } < /nope", cs!"f"]).cwd = cs!"/tmp" ∧
    (demo [cs!"f() { cd $D; }", cs!"D=/tmp f"]).cwd = (demo [cs!"f() { cd $D; }", cs!"f"]).cwd := by
  decide +kernel

/-- `A=1 f x > out`. -/
def callSample : RCmd where
  front := [.assign (cs!"A") (.plain (cs!"1"))]
  name := cs!"f"
  back := [.arg (word (cs!"x")).1 (word (cs!"x")).2, .redir ⟨.output, .plain (cs!"out"), none⟩]

/-- The hypotheses are met by `A=1 f x > out` after a definition of `f`. -/
example : callSample.Calls (demo [cs!"f() { pwd; }"]) [.mk none none (.mk false [.simple ⟨none, cs!"pwd", none⟩] false)] where
  redirs := by
    intro r hr
    simp only [callSample, RCmd.redirs, frontRedirs, backRedirs, List.nil_append, List.mem_singleton] at hr
    subst hr
    exact ⟨by decide, by decide, by decide⟩
  assigns := by
    intro a ha
    simp only [callSample, frontAssigns, List.mem_singleton] at ha
    subst ha
    decide
  bare := by
    refine ⟨by decide, by decide, by decide +kernel, by decide, ?_, by decide, none, rfl⟩
    intro a ha
    simp only [callSample, RCmd.bare, backArgs, List.mem_singleton] at ha
    subst ha
    exact means_word (by decide)

end Rsh
