import Verif.Model.Str

/-!
# Texts cut at blanks
-/

namespace Rsh.Spec

open Rsh

/-- Nothing but blanks. -/
def AllBlank (t : Str) : Prop := ∀ c ∈ t, isWs c = true

/-- No blank. -/
def NoBlank (t : Str) : Prop := ∀ c ∈ t, isWs c = false

/-- `ws` are the words of a text: its longest parts without blanks, in order. -/
inductive WordsOf : Str → List Str → Prop where
  | nil {b : Str} : AllBlank b → WordsOf b []
  | cons {b x t : Str} {xs : List Str} : AllBlank b → x ≠ [] → NoBlank x → (∀ c ∈ t.head?, isWs c = true) →
      WordsOf t xs → WordsOf (b ++ (x ++ t)) (x :: xs)

/-- `t` is what is left of a text without the blanks around it. -/
def Trimmed (text t : Str) : Prop :=
  ∃ a b, text = a ++ (t ++ b) ∧ AllBlank a ∧ AllBlank b ∧
    (∀ c ∈ t.head?, isWs c = false) ∧ (∀ c ∈ t.getLast?, isWs c = false) ∧ (t = [] → b = [])

end Rsh.Spec
