import Verif.Spec.Named
import Verif.Spec.Session

/-!
# Sessions without certain commands, from one prompt to a later one
-/

namespace Rsh.Spec

/-- `s'` is a later prompt of the session that is at the prompt `s`; the lines typed in between have no command named
in `D`. -/
inductive LaterWithout (D : List Str) (w : World) (s : Sh) : Sh → Prop where
  | here : LaterWithout D w s s
  | line {s1 s2 n l} : LaterWithout D w s s1 → Without D l → (do prompt; interactiveLine w n l : M Unit) s1 = (.ok (), s2) →
    LaterWithout D w s s2
  | interrupted {s1 s2} : LaterWithout D w s s1 → prompt s1 = (.ok (), s2) → LaterWithout D w s s2
  | sig {s1 s2 g} : LaterWithout D w s s1 → deliver w g s1 = (.ok (), s2) → LaterWithout D w s s2
  | waits {s1 ws} : LaterWithout D w s s1 → LaterWithout D w s { s1 with waits := ws }

/-- The commands with which a read-only variable can be changed, and those that run other text. -/
def loosening : List Str := [cs!"readonly", cs!"unset"] ++ indirect

/-- The commands that set or remove variables (the empty name is that of an assignment), and those that run other text. -/
def assigning : List Str := [] :: loosening

/-- Definitions of functions, the command that removes them, and those that run other text. -/
def defining : List Str := [defMark, cs!"unset"] ++ indirect

/-- Not the name of a positional parameter: it does not begin with a digit. -/
def Named (x : Str) : Prop := x.head?.all (fun c => !isDigit10 c) = true

end Rsh.Spec
