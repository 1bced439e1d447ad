/-!
# Model of the primitive `log_msg`

`/repo/src/bm_sim/core/primitives.cpp:130-196`.  Strings are lists of characters, positions are as in
the code; `find` is `std::string::find`, which fails when it starts beyond the end.  The loops have
fuel; running out of it is an outcome of its own (`stuck`), and so is reading `str[-1]` (`ub`).  The
arguments are their decimal representations.  The log line is what the primitive does; `std::exit`
terminates the switch.
-/

namespace Bm.LogMsg

/-- What the primitive does. -/
inductive Out
  | logged (s : List Char)
  | noMatching
  | wrongCount (expected got : Nat)
  | ub
  | stuck
deriving DecidableEq, Repr

/-- `std::string::find(c, pos)`. -/
def find (c : Char) (s : List Char) (pos : Nat) : Option Nat :=
  ((s.drop pos).findIdx? (· == c)).map (· + pos)

/-- The inner loop: the closing bracket.  `/repo/src/bm_sim/core/primitives.cpp:142-148`. -/
def findClose (s : List Char) : Nat → Nat → Option (Option Nat)
  | 0, _ => none
  | n + 1, tmp =>
    match find '}' s tmp with
    | none => some none
    | some e => if s[e - 1]? = some '\\' then findClose s n (e + 1) else some (some e)

/-- State of the outer loop. -/
structure St where
  str : List Char
  «open» : Nat
  counter : Nat
deriving Repr

/-- Replacing `str[open..end]`, or stepping over it if there are no more arguments.
`/repo/src/bm_sim/core/primitives.cpp:158-166`. -/
def step (args : List (List Char)) (st : St) (pos e : Nat) : St :=
  match args[st.counter]? with
  | some a => ⟨st.str.take pos ++ a ++ st.str.drop (e + 1), pos + a.length, st.counter + 1⟩
  | none => ⟨st.str, pos + (e - pos), st.counter + 1⟩

/-- The outer loop.  `/repo/src/bm_sim/core/primitives.cpp:138-168`. -/
def loop (args : List (List Char)) : Nat → St → Out ⊕ St
  | 0, _ => .inl .stuck
  | n + 1, st =>
    match find '{' st.str (st.open + 1) with
    | none => .inr st
    | some 0 => .inl .ub
    | some (q + 1) =>
      if st.str[q]? = some '\\' then loop args n { st with «open» := q + 1 }
      else match findClose st.str (st.str.length + 1) (q + 1) with
        | none => .inl .stuck
        | some none => .inl .noMatching
        | some (some e) => loop args n (step args st (q + 1) e)

/-- `str.find("\\b", pos)` for a bracket `b`. -/
def findEsc (b : Char) : List Char → Option Nat
  | '\\' :: c :: r => if c = b then some 0 else (findEsc b (c :: r)).map (· + 1)
  | _ :: r => (findEsc b r).map (· + 1)
  | [] => none

/-- Removing the backslashes.  `/repo/src/bm_sim/core/primitives.cpp:181-188`. -/
def unescape (b : Char) : Nat → List Char → Nat → Option (List Char)
  | 0, _, _ => none
  | n + 1, s, tmp =>
    match findEsc b (s.drop tmp) with
    | none => some s
    | some k => unescape b n (s.eraseIdx (k + tmp)) (k + tmp)

/-- The end of the primitive.  `/repo/src/bm_sim/core/primitives.cpp:181-190`. -/
def finish (s : List Char) : Out :=
  match unescape '{' (s.length + 1) s 0 with
  | none => .stuck
  | some s => match unescape '}' (s.length + 1) s 0 with
    | none => .stuck
    | some s => .logged s

/-- `log_msg`.  `/repo/src/bm_sim/core/primitives.cpp:130-191`. -/
def logMsg (format : List Char) (args : List (List Char)) : Out :=
  match loop args (format.length + 1) ⟨format, 0, 0⟩ with
  | .inl o => o
  | .inr st => if st.counter = args.length then finish st.str else .wrongCount st.counter args.length

end Bm.LogMsg
