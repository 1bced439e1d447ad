import Verif.Model.Register

/-! # What registers should contain -/

namespace Bm.Reg

/-- Requests that change registers. -/
inductive Req
  | write (n idx : Nat) (v : Int)
  | writeRange (n start stop : Nat) (v : Int)
  | reset (n : Nat)
  /-- by a primitive: `f` of the value there -/
  | update (n idx : Nat) (f : Int → Option Int)

/-- The declared size and width of the arrays. -/
abbrev Decl := Nat → Option (Nat × Nat)

/-- The contents after a request; `v % 2 ^ w` is between 0 and `2 ^ w`. -/
def want1 (d : Decl) (f : Nat → Nat → Int) : Req → Nat → Nat → Int
  | .write n idx v => fun m i =>
    match d n with
    | some (size, w) => if m = n ∧ i = idx ∧ idx < size then v % 2 ^ w else f m i
    | none => f m i
  | .writeRange n start stop v => fun m i =>
    match d n with
    | some (size, w) =>
      if m = n ∧ start ≤ i ∧ i < stop ∧ stop ≤ size then v % 2 ^ w else f m i
    | none => f m i
  | .reset n => fun m i => if m = n then 0 else f m i
  | .update n idx g => fun m i =>
    match d n, g (f n idx) with
    | some (_, w), some v => if m = n ∧ i = idx then v % 2 ^ w else f m i
    | _, _ => f m i

/-- The contents after a history. -/
def want (d : Decl) (rs : List Req) : Nat → Nat → Int := rs.foldl (want1 d) fun _ _ => 0

/-- The arrays at the start. -/
def Decl.start (d : Decl) : Ctx := fun n => (d n).map fun p => .mk' p.1 p.2

/-- One request, without its code. -/
def Ctx.exec (c : Ctx) : Req → Option Ctx
  | .write n idx v => (c.write n idx v).map (·.2)
  | .writeRange n start stop v => (c.writeRange n start stop v).map (·.2)
  | .reset n => some (c.reset n).2
  | .update n idx f => c.update n idx f

/-- A history. -/
def Ctx.run (c : Ctx) : List Req → Option Ctx
  | [] => some c
  | r :: rs => (c.exec r).bind (·.run rs)

/-- The value a register has after a log. -/
def lastVal (w : Nat) (log : List Entry) (idx : Nat) : Int :=
  log.foldl (fun x e => match e with
    | .wrote i v => if i = idx then v % 2 ^ w else x
    | .reset => 0
    | .read _ _ => x) 0

/-- Resets happen only when no write is going on. -/
def Quiet (s : Sys) : List Ev → Prop
  | [] => True
  | e :: es =>
    (e = .reset → s.phase = .idle) ∧
      match s.step e with
      | .ok s' => Quiet s' es
      | .no => Quiet s es
      | .ub => True

/-- The indices used are in range (the API checks them; `at` and `operator[]` throw or assert). -/
def InRange (size : Nat) : List Ev → Prop
  | [] => True
  | .begin _ idx _ :: es => idx < size ∧ InRange size es
  | .read _ idx :: es => idx < size ∧ InRange size es
  | _ :: es => InRange size es

end Bm.Reg
