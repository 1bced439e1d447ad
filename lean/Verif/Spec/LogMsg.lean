/-!
# What a format string of `log_msg` means

A format is a sequence of characters, escaped brackets and placeholders.  The message has the bracket
for an escaped bracket and the arguments, in order, for the placeholders.
-/

namespace Bm.LogMsg.Spec

/-- A part of a format: a character, `\{` or `\}`, a placeholder `{…}`. -/
inductive Tok
  | ch (c : Char)
  | esc (opening : Bool)
  | hole (body : List Char)

/-- Characters are not opening brackets or backslashes; there are neither of them nor closing brackets
in a placeholder. -/
def Tok.Ok : Tok → Prop
  | .ch c => c ≠ '{' ∧ c ≠ '\\'
  | .esc _ => True
  | .hole body => ∀ c ∈ body, c ≠ '{' ∧ c ≠ '}' ∧ c ≠ '\\'

/-- How the part is written. -/
def Tok.written : Tok → List Char
  | .ch c => [c]
  | .esc true => ['\\', '{']
  | .esc false => ['\\', '}']
  | .hole body => '{' :: body ++ ['}']

/-- The format string. -/
def format (ts : List Tok) : List Char := ts.flatMap Tok.written

/-- Number of placeholders. -/
def holes : List Tok → Nat
  | [] => 0
  | .hole _ :: ts => holes ts + 1
  | _ :: ts => holes ts

/-- The message for as many arguments as there are placeholders. -/
def message : List Tok → List (List Char) → List Char
  | [], _ => []
  | .ch c :: ts, args => c :: message ts args
  | .esc true :: ts, args => '{' :: message ts args
  | .esc false :: ts, args => '}' :: message ts args
  | .hole _ :: ts, a :: args => a ++ message ts args
  | .hole _ :: ts, [] => message ts []

/-- Every placeholder has something else than a placeholder before it (`b`: something is before this
sequence). -/
def Apart : Bool → List Tok → Prop
  | _, [] => True
  | b, .hole _ :: ts => b = true ∧ Apart false ts
  | _, .ch _ :: ts => Apart true ts
  | _, .esc _ :: ts => Apart true ts

end Bm.LogMsg.Spec
