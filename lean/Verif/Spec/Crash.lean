import Verif.Spec.Builtin
import Verif.Spec.Context
import Verif.Spec.Exec

/-!
# When builtins crash
-/

namespace Rsh.Spec

open Rsh

/-- A decimal digit. -/
abbrev Digit (c : Char) : Prop := '0'.toNat ≤ c.toNat ∧ c.toNat ≤ '9'.toNat

/-- At least one digit, and nothing else. -/
def Digits (ds : Str) : Prop := ds ≠ [] ∧ ∀ c ∈ ds, Digit c

/-- The number they denote. -/
def decimal : Str → Nat
  | [] => 0
  | d :: ds => (d.toNat - '0'.toNat) * 10 ^ ds.length + decimal ds

/-- `x` is written as the number `n`, not larger than `mx`. -/
inductive Unsigned (mx : Nat) : Str → Nat → Prop where
  | plain {ds} : Digits ds → decimal ds ≤ mx → Unsigned mx ds (decimal ds)
  | plus {ds} : Digits ds → decimal ds ≤ mx → Unsigned mx ('+' :: ds) (decimal ds)

/-- `x` is a number of 32 bits with sign. -/
def Signed32 (x : Str) : Prop :=
  (∃ n, Unsigned 2147483647 x n) ∨ ∃ ds, x = '-' :: ds ∧ Digits ds ∧ decimal ds ≤ 2147483648

/-- A text `name=value` that can be stored: not empty, and if it starts with a digit, then all the digits in
it make up a number of 64 bits. -/
def Storable (t : Str) : Prop :=
  t ≠ [] ∧ ∀ c, t.head? = some c → Digit c → decimal (t.filter fun c => decide (Digit c)) < 18446744073709551616

/-- `x` is `ns::v`, or `ns::v::…`, with nothing more to split in `ns` and `v`. -/
def Qualified (x ns v : Str) : Prop :=
  Unqualified (ns ++ [':']) ∧
    ((Unqualified v ∧ x = ns ++ ':' :: ':' :: v) ∨ (Unqualified (v ++ [':']) ∧ ∃ t, x = ns ++ ':' :: ':' :: v ++ ':' :: ':' :: t))

/-- The argument of `fg` and `bg` is a number, or `%` and a number. -/
def JobRef (v : Str) : Prop :=
  (∃ n, Unsigned 4294967295 v n) ∨ ∃ ds n, v = '%' :: ds ∧ Unsigned 4294967295 ds n

/-- It designates this job: by the number of the job, or of one of its processes. -/
inductive Designates (s : Sh) : Str → Job → Prop where
  | job {ds n j} : Unsigned 4294967295 ds n → s.jc.getJob n = some j → Designates s ('%' :: ds) j
  | pid {v n j} : Unsigned 4294967295 v n →
      s.jc.getJobPid (if n < 2147483648 then (n : Int) else (n : Int) - 4294967296) = some j → Designates s v j

/-- One of these processes, signalled one after the other, does not exist any more. -/
def SomeGone (w : World) (s : Sh) (ps : List Process) : Prop :=
  ∃ pre p post, ps = pre ++ p :: post ∧
    w.killOk ((pre.reverse.map fun q => .kill q.pid) ++ s.trace) p.pid = false

/-- The first option of `readonly`: what it is about, and whether to list. -/
inductive RoFirst : Str → Flags → Bool → Prop where
  | function {x} : '-' ∈ x → 'f' ∈ x → RoFirst x .function false
  | context {x} : '-' ∈ x → 'f' ∉ x → 'c' ∈ x → RoFirst x .context false
  | variable {x} : '-' ∈ x → 'f' ∉ x → 'c' ∉ x → 'v' ∈ x → RoFirst x .variable false
  | list {x} : '-' ∈ x → 'f' ∉ x → 'c' ∉ x → 'v' ∉ x → 'p' ∈ x → RoFirst x .variable true

/-- The options of `readonly`: what it is about, whether to list, and the words that remain. -/
inductive RoOpts : List Str → Flags → Bool → List Str → Prop where
  | none {x xs} : '-' ∉ x → RoOpts (x :: xs) .variable false (x :: xs)
  | one {x y xs k l} : RoFirst x k l → '-' ∉ y → RoOpts (x :: y :: xs) k l (y :: xs)
  | two {x y xs k l} : RoFirst x k l → '-' ∈ y → 'p' ∈ y → RoOpts (x :: y :: xs) k true xs

/-- There is a read-only variable in one of these contexts. -/
def SomeReadonly (s : Sh) (ids : Nat → Prop) : Prop :=
  ∃ i, ids i ∧ ∃ p ∈ (s.ctx.heap i).vars, p.2.readonly = true

/-- The contexts in use: those of the running functions, and the exported ones. -/
def InUse (s : Sh) (i : Nat) : Prop := i ∈ s.ctx.stack ∨ ∃ ns, (ns, i) ∈ s.ctx.exported

/-- The arguments that make a builtin crash in the state `s`. -/
inductive Crashes (w : World) (s : Sh) : Str → List Str → Prop where
  | cd : Crashes w s (cs!"cd") []
  | exit {v vs} : ¬ Signed32 v → Crashes w s (cs!"exit") (v :: vs)
  | return {v vs} : ¬ Signed32 v → Crashes w s (cs!"return") (v :: vs)
  | jobs {vs} : s.jc.table ≠ [] → Crashes w s (cs!"jobs") vs
  | alias : Crashes w s (cs!"alias") []
  | unalias : Crashes w s (cs!"unalias") []
  | unset {v} : '-' ∈ v → 'f' ∈ v ∨ 'c' ∈ v ∨ 'v' ∈ v → Crashes w s (cs!"unset") [v]
  | fgNone : Crashes w s (cs!"fg") []
  | fgRef {v vs} : ¬ JobRef v → Crashes w s (cs!"fg") (v :: vs)
  | fgGone {v vs j} : Designates s v j → SomeGone w s j.processes → Crashes w s (cs!"fg") (v :: vs)
  | bgNone : Crashes w s (cs!"bg") []
  | bgRef {v vs} : ¬ JobRef v → Crashes w s (cs!"bg") (v :: vs)
  | bgGone {v vs j} : Designates s v j → SomeGone w s j.processes → Crashes w s (cs!"bg") (v :: vs)
  | exportSet {x xs k r} : (∀ y ∈ x :: xs, '=' ∈ y) → (¬ ∃ a b, x = a ++ cs!"-p" ++ b) → k ++ '=' :: r ∈ x :: xs → '=' ∉ k →
      (¬ Storable (k ++ '=' :: r) ∨ k = [] ∨ '\x00' ∈ k ∨ '\x00' ∈ r.takeWhile (fun c => decide (c ≠ '='))) →
      Crashes w s (cs!"export") (x :: xs)
  | exportName {x b} : '=' ∉ x → (¬ ∃ a b, x = a ++ cs!"-p" ++ b) → x ≠ cs!"context" →
      s.ctx.getVar x = some b → ¬ Storable (x ++ '=' :: b.value) → Crashes w s (cs!"export") [x]
  | readonlyShort {x k l} : RoFirst x k l → Crashes w s (cs!"readonly") [x]
  | readonlyList {vs rest} : RoOpts vs .variable true rest → SomeReadonly s (InUse s) →
      Crashes w s (cs!"readonly") vs
  | readonlyContext {vs a rest} : RoOpts vs .context true (a :: rest) →
      SomeReadonly s (fun i => s.ctx.exported.lookup a = some i ∨ InUse s i) → Crashes w s (cs!"readonly") vs
  | readonlySet {vs k a rest} : RoOpts vs k false (a :: rest) → k ≠ .function → '=' ∈ a → Unqualified a → ¬ Storable a →
      Crashes w s (cs!"readonly") vs
  | readonlySetIn {vs k a rest ns v i} : RoOpts vs k false (a :: rest) → k ≠ .function → '=' ∈ a → Qualified a ns v →
      s.ctx.exported.lookup ns = some i → ¬ Storable v → Crashes w s (cs!"readonly") vs
  | readonlyMark {vs k a rest} : RoOpts vs k false (a :: rest) → k ≠ .function → '=' ∉ a → s.ctx.getVar a = none →
      (∀ ns v, Qualified a ns v → ∃ i, s.ctx.exported.lookup ns = some i) → Crashes w s (cs!"readonly") vs
  | exec {vs} : ExecCrashes w s vs → Crashes w s (cs!"exec") vs

/-- The calls that `C78_exact_partial` is about: all of these builtins; but of `fg` only if there is no job to wait
for, and of `export` with several words only if all of them are of the form `NAME=VALUE`. -/
def Decided (w : World) (s : Sh) (name : Str) (values : List Str) : Prop :=
  name ∈ [cs!"cd", cs!"exit", cs!"return", cs!"jobs", cs!"alias", cs!"unalias", cs!"unset", cs!"pwd", cs!"bg",
    cs!"readonly", cs!"exec"] ∨
  (name = cs!"fg" ∧ ∀ v ∈ values.head?, ∀ j, Designates s v j → SomeGone w s j.processes) ∨
  (name = cs!"export" ∧ (values.length ≤ 1 ∨ ∀ v ∈ values, '=' ∈ v))

end Rsh.Spec
