/-!
# Rust standard-library string functions used by rsh

Rust `&str`/`String` values are modelled as `List Char` (sequences of Unicode scalar values);
Rust `char` and Lean `Char` are the same set.  Byte offsets are UTF-8 offsets
(`Char.utf8Size`).  None of these definitions comes from /repo: they model the pieces of the
Rust standard library that /repo calls, and are part of the trusted base.
-/

namespace Rsh

/-- Rust strings. -/
abbrev Str := List Char

/-- `cs! "abc"` is the character list `['a', 'b', 'c']`, expanded at elaboration time. -/
syntax (name := csLit) "cs!" noWs str : term

macro_rules
  | `(cs!$s:str) => do
    let elems := (s.getString.toList.map fun c => Lean.Syntax.mkCharLit c).toArray
    `(([$elems,*] : List Char))

/-- `char::is_whitespace` (Unicode property White_Space); used at src/lexer.rs:233,410 and
src/ast.rs:225. -/
def isWs (c : Char) : Bool :=
  (9 ≤ c.toNat && c.toNat ≤ 13) || c.toNat == 0x20 || c.toNat == 0x85 || c.toNat == 0xA0 ||
  c.toNat == 0x1680 || (0x2000 ≤ c.toNat && c.toNat ≤ 0x200A) || c.toNat == 0x2028 ||
  c.toNat == 0x2029 || c.toNat == 0x202F || c.toNat == 0x205F || c.toNat == 0x3000

/-- `str::len`: length in bytes. -/
def blen : Str → Nat
  | [] => 0
  | c :: cs => c.utf8Size + blen cs

/-- Drop exactly `n` bytes; `none` when `n` is past the end or inside a character. -/
def dropB : Nat → Str → Option Str
  | 0, s => some s
  | _ + 1, [] => none
  | n + 1, c :: cs => if c.utf8Size ≤ n + 1 then dropB (n + 1 - c.utf8Size) cs else none

/-- Take exactly `n` bytes; `none` when `n` is past the end or inside a character. -/
def takeB : Nat → Str → Option Str
  | 0, _ => some []
  | _ + 1, [] => none
  | n + 1, c :: cs =>
    if c.utf8Size ≤ n + 1 then (takeB (n + 1 - c.utf8Size) cs).map (c :: ·) else none

/-- `&s[a..b]`; `none` models the panic of an out-of-range or non-boundary slice. -/
def sliceB (s : Str) (a b : Nat) : Option Str :=
  if a ≤ b then (dropB a s).bind (takeB (b - a)) else none

/-- `&s[a..]`. -/
def sliceFromB (s : Str) (a : Nat) : Option Str := dropB a s

/-- `str::starts_with`. -/
def startsWith (p s : Str) : Bool := p.isPrefixOf s

/-- `str::ends_with`. -/
def endsWith (p s : Str) : Bool := p.isSuffixOf s

/-- `str::contains(&str)`. -/
def hasSub (p : Str) : Str → Bool
  | [] => p.isEmpty
  | c :: cs => p.isPrefixOf (c :: cs) || hasSub p cs

/-- `str::contains(char)`. -/
def hasChar (c : Char) (s : Str) : Bool := s.contains c

/-- `str::split(char)` collected: always at least one piece. -/
def splitOn (p : Char) : Str → List Str
  | [] => [[]]
  | c :: cs =>
    if c = p then [] :: splitOn p cs
    else match splitOn p cs with
      | [] => [[c]]
      | w :: ws => (c :: w) :: ws

/-- `str::split("::")` collected. -/
def splitColons : Str → List Str
  | [] => [[]]
  | [c] => [[c]]
  | a :: b :: cs =>
    if a = ':' ∧ b = ':' then [] :: splitColons cs
    else match splitColons (b :: cs) with
      | [] => [[a]]
      | w :: ws => (a :: w) :: ws

/-- Worker of `splitWs`; `cur` is the word read so far. -/
def splitWsAux (cur : Str) : Str → List Str
  | [] => if cur.isEmpty then [] else [cur]
  | c :: cs =>
    if isWs c then
      if cur.isEmpty then splitWsAux [] cs else cur :: splitWsAux [] cs
    else splitWsAux (cur ++ [c]) cs

/-- `str::split_whitespace` collected. -/
def splitWs (s : Str) : List Str := splitWsAux [] s

/-- `str::trim`. -/
def trimWs (s : Str) : Str := ((s.dropWhile isWs).reverse.dropWhile isWs).reverse

/-- `char::to_digit(10).is_some()`. -/
def isDigit10 (c : Char) : Bool := 48 ≤ c.toNat && c.toNat ≤ 57

/-- Value of a digit sequence, most significant first. -/
def digitsVal (acc : Nat) (s : Str) : Nat := s.foldl (fun a c => a * 10 + (c.toNat - 48)) acc

/-- Non-empty sequence of ASCII digits. -/
def parseDigits (s : Str) : Option Nat :=
  if s.isEmpty then none
  else if s.all isDigit10 then some (digitsVal 0 s) else none

/-- `str::parse::<i32>()`: optional sign, at least one digit, in range. -/
def parseI32 (s : Str) : Option Int :=
  match s with
  | '-' :: ds => (parseDigits ds).bind fun n => if n ≤ 2147483648 then some (-(n : Int)) else none
  | '+' :: ds => (parseDigits ds).bind fun n => if n ≤ 2147483647 then some (n : Int) else none
  | ds => (parseDigits ds).bind fun n => if n ≤ 2147483647 then some (n : Int) else none

/-- `str::parse` to an unsigned type with maximum `mx`. -/
def parseUnsigned (mx : Nat) (s : Str) : Option Nat :=
  match s with
  | '+' :: ds => (parseDigits ds).bind fun n => if n ≤ mx then some n else none
  | ds => (parseDigits ds).bind fun n => if n ≤ mx then some n else none

/-- `str::parse::<u32>()`. -/
def parseU32 (s : Str) : Option Nat := parseUnsigned 4294967295 s

/-- `str::parse::<usize>()` on a 64-bit target. -/
def parseUsize (s : Str) : Option Nat := parseUnsigned 18446744073709551615 s

/-- `format!("{}", n)` for an unsigned integer. -/
def natStr (n : Nat) : Str := Nat.toDigits 10 n

/-- `format!("{}", n)` for a signed integer. -/
def intStr (n : Int) : Str :=
  if n < 0 then '-' :: natStr n.natAbs else natStr n.natAbs

/-- `[String]::join(" ")`. -/
def joinSp : List Str → Str
  | [] => []
  | [w] => w
  | w :: ws => w ++ ' ' :: joinSp ws

/-- The quote-trimming helper that occurs, textually identical, at src/context.rs:491-501,
src/shell.rs:336-346, src/builtins.rs:35-45 and src/var.rs:202-212. -/
def trimQuotes (w : Str) : Str :=
  if (startsWith ['"'] w && endsWith ['"'] w) || (startsWith ['\''] w && endsWith ['\''] w) then
    w.tail.dropLast
  else w

end Rsh
