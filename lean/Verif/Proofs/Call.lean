import Verif.Spec.Builtin
import Verif.Props.Lists
import Verif.Proofs.Digits

/-!
# Lines that begin with a builtin
-/

namespace Rsh

open Spec

theorem wordsOf_args (as : List (Typed × Str)) :
    wordsOf (as.map fun a => Part.arg a.1) = as.map fun a => a.1.text := by
  induction as with
  | nil => rfl
  | cons a as ih => simp [wordsOf, ih]

theorem redirsOf_args (as : List (Typed × Str)) : redirsOf (as.map fun a => Part.arg a.1) = [] := by
  induction as with
  | nil => rfl
  | cons a as ih => simp [redirsOf, ih]

theorem arrive_args {get : Str → Option Str} {as : List (Typed × Str)} (h : ∀ a ∈ as, a.1.Means get a.2) :
    Arrive get (as.map fun a => a.1.text) (as.map Prod.snd) := by
  induction as with
  | nil => exact .nil
  | cons a as ih =>
    exact .cons (h a List.mem_cons_self) (ih fun b hb => h b (List.mem_cons_of_mem _ hb))

theorem means_word {get : Str → Option Str} {x : Str} (h : PlainWord x) : (word x).1.Means get (word x).2 := by
  have := arrives_plain (get := get) h []
  simpa [word, Typed.Means, Typed.text] using this

/-- The command after expansion. -/
def Call.simple (c : Call) : SimpleCommand := ⟨none, c.name, some ⟨[], c.values⟩⟩

theorem Call.expand (w : World) (rec : List AndOr → M Int) {c : Call} {s : Sh} (h : c.Ok s) :
    expandCommand w rec c.cmd.command s = (.ok (Call.simple c), s) := by
  have hcmd : c.cmd.command =
      ⟨none, c.name, if c.args = [] then none else some ⟨[], c.args.map fun a => a.1.text⟩⟩ := by
    simp [TCmd.command, Call.cmd, Typed.text, wordsOf_args, redirsOf_args]
  rw [hcmd, expandCommand_words w rec (vs := c.values) (builtin_plain h.builtin h.named) h.alias (by simp)]
  · unfold Call.simple
    cases c.args <;> simp
  · show Arrive _ _ _
    unfold Call.values
    cases hA : c.args with
    | nil => exact .nil
    | cons a as =>
      rw [if_neg (by simp)]
      have := arrive_args h.means
      rwa [hA] at this

/-- A pipeline that begins with a builtin is that builtin. -/
theorem evalPipeline_first (w : World) (rec : List AndOr → M Int) {c c' : SimpleCommand} (rest : List Command)
    (bang b : Bool) (hb : c.name ∈ builtins) {s : Sh}
    (hx : expandCommand w rec c { s with masked := true } = (.ok c', { s with masked := true })) :
    evalPipeline w rec (.mk bang (.simple c :: rest) b) s =
      (do callBuiltin w rec c'; pure 0 : M Int) { s with masked := true } := by
  unfold evalPipeline
  rw [run_bind_ok (show interruptsOff s = (.ok (), { s with masked := true }) from rfl)]
  have e : evalCommands w rec (Pipeline.seq (.mk bang (.simple c :: rest) b)) { s with masked := true } =
      (do callBuiltin w rec c'; pure [] : M (List (Process × SimpleCommand))) { s with masked := true } := by
    show evalCommands w rec (.simple c :: rest) _ = _
    have e1 : evalCommands w rec (.simple c :: rest) = (do
        match ← evalSimple w rec c with
        | none => pure []
        | some pc => do
          let rest ← evalCommands w rec rest
          pure (pc :: rest)) := rfl
    rw [e1]
    unfold evalSimple evalBuiltin
    rw [if_pos ((isBuiltin_iff _).2 hb), bind_assoc, bind_assoc, run_bind_ok hx, run_bind, run_bind]
    rcases callBuiltin w rec c' { s with masked := true } with ⟨o, s'⟩
    cases o <;> rfl
  rw [run_bind, e, run_bind, run_bind]
  rcases callBuiltin w rec c' { s with masked := true } with ⟨o, s'⟩
  cases o <;> rfl

theorem Call.ok_masked {c : Call} {s : Sh} (h : c.Ok s) : c.Ok { s with masked := true } :=
  ⟨h.builtin, h.named, h.alias, h.typed, h.means⟩

theorem Call.cmd_ok {c : Call} {s : Sh} (h : c.Ok s) : c.cmd.Ok where
  before := by simp [Call.cmd]
  noArg := by simp [Call.cmd]
  name := by
    intro t ht
    simp only [Call.cmd, Option.some.injEq] at ht
    subst ht
    exact builtin_plain h.builtin h.named
  after := by
    intro p hp
    simp only [Call.cmd, List.mem_map] at hp
    obtain ⟨a, ha, rfl⟩ := hp
    exact h.typed a ha
  some := by simp [Call.cmd]

theorem Call.pipeline (w : World) (rec : List AndOr → M Int) {c : Call} {s : Sh} (h : c.Ok s) {p : TPipe}
    (hp : p.first = c.cmd) :
    evalPipeline w rec p.pipeline s =
      (do callBuiltin w rec (Call.simple c); pure 0 : M Int) { s with masked := true } := by
  unfold TPipe.pipeline TPipe.cmds
  rw [hp, List.map_cons]
  refine evalPipeline_first w rec _ _ _ ?_ (Call.expand w rec (Call.ok_masked h))
  show c.name ∈ builtins
  exact h.builtin

/-- What a builtin does that is typed alone. -/
theorem Call.line (w : World) (n : Nat) {c : Call} {s : Sh} (h : c.Ok s) :
    interactiveLine w (n + 1) c.text s =
      reportM (callBuiltin w (evalFuel w n) (Call.simple c)) { s with masked := true } := by
  refine interactiveLine_pipeline (TCmd.parse (Call.cmd_ok h)) (TLine.text_ne (TCmd.line_ok (Call.cmd_ok h))) ?_
  exact Call.pipeline w _ (p := { first := c.cmd }) h rfl

theorem evalAndOr_begins {w : World} {rec : List AndOr → M Int} {s s1 : Sh} {o : Out Int} (ho : ∀ a, o ≠ .ok a)
    (p : TPipe) (h : evalPipeline w rec p.pipeline s = (o, s1)) (c : TChain) (hc : c.first = p) :
    evalAndOr w rec c.tree s = (o, s1) := by
  induction c using TChain.snocInd with
  | one q =>
    have hc : q = p := hc
    subst hc
    show evalAndOr w rec (.mk none none q.pipeline) s = _
    unfold evalAndOr
    exact h
  | snoc c op q ih =>
    rw [TChain.snoc_tree]
    unfold evalAndOr
    exact run_bind_stop (ih hc) ho _

/-- A line that begins with a builtin that does not come back. -/
theorem Call.begins (w : World) (n : Nat) {c : Call} {s s1 : Sh} (h : c.Ok s) {l : TLine} (hl : c.Begins l)
    {o : Out Unit} (hr : callBuiltin w (evalFuel w n) (Call.simple c) { s with masked := true } = (o, s1))
    (ho : (∀ a, o ≠ .ok a) ∧ ∀ e, o ≠ .err e) :
    interactiveLine w (n + 1) l.text s = (o, s1) := by
  have hp := Call.pipeline w (evalFuel w n) h hl.2
  obtain ⟨h1, h2⟩ := hl
  obtain ⟨c1, cs⟩ := l
  have key : ∀ o' : Out Int, (∀ a, o' ≠ .ok a) →
      evalPipeline w (evalFuel w n) c1.first.pipeline s = (o', s1) →
      (evalTop w (n + 1) (some (⟨c1, cs⟩ : TLine).tree) : M Int) s = (o', s1) := by
    intro o' ho' e
    show evalListFrom w (evalFuel w n) (-1) (c1.tree :: cs.map TChain.tree) s = _
    unfold evalListFrom
    exact run_bind_stop (evalAndOr_begins ho' _ e c1 rfl) ho' _
  unfold interactiveLine
  rw [if_neg (TLine.text_ne h1), parse_tline h1]
  simp only
  rw [run_bind, run_tryE]
  rw [run_bind, hr] at hp
  cases o with
  | ok a => exact absurd rfl (ho.1 a)
  | err e => exact absurd rfl (ho.2 e)
  | _ => rw [key _ (by simp) hp]

end Rsh
