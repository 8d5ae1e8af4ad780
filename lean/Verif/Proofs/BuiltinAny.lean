import Verif.Proofs.Call
import Verif.Proofs.Redirect

/-!
# Builtins with redirections, assignments and aliases around them
-/

namespace Rsh

namespace Spec

/-- A builtin typed with redirections and assignments around it; the values assigned have no
variables in them. -/
structure RCmd.Builtin (c : RCmd) (s : Sh) : Prop where
  redirs : ∀ r ∈ c.redirs, r.Ok
  assigns : ∀ a ∈ frontAssigns c.front, PlainWord a.1 ∧ a.2.Ok ∧ '$' ∉ a.2.text
  builtin : c.name ∈ builtins
  named : c.name ≠ []
  alias : s.aliases.get c.name = none
  typed : ∀ a ∈ backArgs c.back, a.1.Ok
  means : ∀ a ∈ backArgs c.back, a.1.Means (valueOf s) a.2

/-- The builtin and its arguments only. -/
def RCmd.bare (c : RCmd) : Call := ⟨c.name, backArgs c.back⟩

end Spec

open Spec

theorem RCmd.Builtin.bare_ok {c : RCmd} {s : Sh} (h : c.Builtin s) : c.bare.Ok s :=
  ⟨h.builtin, h.named, h.alias, h.typed, h.means⟩

/-- A builtin with a name looks neither at the redirections nor at the assignments. -/
theorem callBuiltin_words (w : World) (rec : List AndOr → M Int) {name : Str} (hne : name ≠ [])
    (p p' : Option Prefix) (rs rs' : List IoRedirect) (vs : List Str) :
    callBuiltin w rec ⟨p, name, some ⟨rs, vs⟩⟩ = callBuiltin w rec ⟨p', name, some ⟨rs', vs⟩⟩ := by
  unfold callBuiltin
  simp only [hne, if_false]
  rfl

/-- A line with one builtin, whatever an alias makes of it. -/
theorem builtin_line_any (w : World) (n : Nat) {s : Sh} {c : TCmd} (hc : c.Ok)
    (hb : c.command.name ∈ builtins) {name : Str} (hname : PlainWord name) {sf : Option Suffix}
    (hal : aliasLookup c.command { s with masked := true } = (.ok ⟨c.command.pre, name, sf⟩, { s with masked := true }))
    {args : List (Typed × Str)} (hw : (sf.map Suffix.word).getD [] = args.map fun a => a.1.text)
    (hpre : ∀ p, c.command.pre = some p → ∀ a ∈ p.assignment, '$' ∉ a)
    (hargs : ∀ a ∈ args, a.1.Means (valueOf s) a.2) :
    interactiveLine w (n + 1) c.line.text s =
      reportM (callBuiltin w (evalFuel w n) ⟨none, name, some ⟨[], args.map Prod.snd⟩⟩) { s with masked := true } := by
  rw [callBuiltin_words w (evalFuel w n) hname.1 none c.command.pre []
    (if args = [] then [] else (sf.map Suffix.ioRedirect).getD []) (args.map Prod.snd)]
  refine interactiveLine_pipeline (TCmd.parse hc) (TLine.text_ne (TCmd.line_ok hc)) ?_
  refine evalPipeline_builtin w _ (c := c.command) false false hb ?_
  exact expandCommand_means w (evalFuel w n) hname args (s := { s with masked := true }) hal hw hpre hargs

theorem RCmd.builtin_eq (w : World) (n : Nat) {s : Sh} {c : RCmd} (h : c.Builtin s) :
    interactiveLine w (n + 1) c.text s = interactiveLine w (n + 1) c.bare.text s := by
  have hname := builtin_plain h.builtin h.named
  have hc := RCmd.tcmd_ok' h.redirs (fun a ha => ⟨(h.assigns a ha).1, (h.assigns a ha).2.1⟩) hname h.typed
  rw [Call.line w n (RCmd.Builtin.bare_ok h)]
  refine builtin_line_any w n hc (name := c.name) (sf := c.tcmd.command.suffix) ?_ hname ?_ ?_ ?_ h.means
  · simpa [TCmd.command, RCmd.tcmd, Typed.text] using h.builtin
  · refine (aliasLookup_none ?_).trans ?_
    · simpa [TCmd.command, RCmd.tcmd, Typed.text] using h.alias
    · simp [TCmd.command, RCmd.tcmd, Typed.text]
  · simp only [TCmd.command, RCmd.tcmd, wordsOf_back, RCmd.bare]
    split
    · next e => rw [((back_nil c.back).1 (List.map_eq_nil_iff.1 e)).1]; rfl
    · rfl
  · intro p hp a ha
    unfold TCmd.command at hp
    by_cases e : c.tcmd.before = []
    · simp only [if_pos e] at hp
      cases hp
    · simp only [if_neg e] at hp
      cases hp
      simp only [RCmd.tcmd, wordsOf_front, List.mem_map] at ha
      obtain ⟨b, hb, rfl⟩ := ha
      exact assignText_noDollar (h.assigns b hb).1 (h.assigns b hb).2.2

end Rsh
