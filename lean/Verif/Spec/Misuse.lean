import Verif.Spec.Builtin

/-!
# Builtins called the wrong way
-/

namespace Rsh.Spec

open Rsh

/-- Calls of builtins (name and arguments) that are refused, and what is said about them. -/
inductive Misuse (s : Sh) : Str → List Str → Str → Prop
  | unset : Misuse s (cs!"unset") [] (cs!"unset needs an argument")
  | unsetOption {x xs} : '-' ∈ x → 'f' ∉ x → 'c' ∉ x → 'v' ∉ x →
      Misuse s (cs!"unset") (x :: xs) (cs!"unset: invalid option")
  | readonly : Misuse s (cs!"readonly") [] (cs!"readonly needs an argument")
  | readonlyOption {x xs} : '-' ∈ x → 'f' ∉ x → 'c' ∉ x → 'v' ∉ x → 'p' ∉ x →
      Misuse s (cs!"readonly") (x :: xs) (cs!"readonly: invalid option")
  | readonlyOptions {x y xs} : '-' ∈ x → 'f' ∈ x ∨ 'c' ∈ x ∨ 'v' ∈ x → '-' ∈ y → 'p' ∉ y →
      Misuse s (cs!"readonly") (x :: y :: xs) (cs!"readonly: invalid option")
  | unalias {x y xs} : Misuse s (cs!"unalias") (x :: y :: xs) (cs!"unalias only takes one argument")
  | exec : Misuse s (cs!"exec") [] (cs!"exec needs an argument")
  | execName {x xs} : '-' ∈ x → 'a' ∈ x → xs.length ≤ 1 → Misuse s (cs!"exec") (x :: xs) (cs!"exec -a needs an argument")
  | source {name} : name ∈ [cs!"source", cs!"."] → Misuse s name [] (cs!"source needs an argument")
  | exportContext : Misuse s (cs!"export") [cs!"context"] (cs!"export context needs an argument")
  | noJob {name n xs} : name ∈ [cs!"fg", cs!"bg"] → n ≤ 4294967295 → (∀ j, (n, j) ∉ s.jc.table) →
      Misuse s name (('%' :: natStr n) :: xs) (cs!"No job with that jid")
  | noProcess {name} {n : Nat} {xs} : name ∈ [cs!"fg", cs!"bg"] → n < 2147483648 → (∀ i, ((n : Int), i) ∉ s.jc.pids) →
      Misuse s name (natStr n :: xs) (cs!"No job with that pid")

end Rsh.Spec
