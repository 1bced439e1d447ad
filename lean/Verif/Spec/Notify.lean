import Verif.Model.Field

/-!
# Specification of notifications (C105)

What happened in the switch, what a controller is told about it, and when the two agree.
-/

namespace Bm.Notify.Spec

/-- Something the switch tells the controllers. -/
inductive Event
  /-- samples of a digest list -/
  | learn (cxt : Nat) (list : Int) (buffer : Nat) (samples : List Bytes)
  /-- entries of a table that have not been used for their idle time -/
  | age (cxt : Nat) (buffer : Nat) (table : Int) (handles : List Nat)
  /-- ports that went up (`true`) or down -/
  | ports (changes : List (Nat × Bool))
  /-- a probe sent by request -/
  | probe (x : Nat)
deriving DecidableEq, Repr

/-- What a controller is told through its callbacks. -/
inductive Call
  | learn (dev cxt : Nat) (list : Int) (buffer num : Nat) (data : Bytes)
  | age (dev cxt : Nat) (table : Int) (buffer num : Nat) (data : Bytes)
  | port (dev : Nat) (port : Int) (up : Bool)
deriving DecidableEq, Repr

/-- The number that four bytes stand for on a little-endian machine. -/
def word : Bytes → Option Nat
  | [a, b, c, d] => some (a.toNat + 2 ^ 8 * b.toNat + 2 ^ 16 * c.toNat + 2 ^ 24 * d.toNat)
  | _ => none

/-- The calls tell what happened on device `dev`. -/
def Tells (dev : Nat) : Event → List Call → Prop
  | .learn cxt list buffer samples, cs =>
    ∃ data, cs = [.learn dev cxt list buffer samples.length data] ∧ samples.flatten <+: data
  | .age cxt buffer table handles, cs =>
    ∃ data, cs = [.age dev cxt table buffer handles.length data] ∧
      ∀ i h, handles[i]? = some h → word ((data.drop (4 * i)).take 4) = some h
  | .ports changes, cs => cs = changes.map fun c => .port dev c.1 c.2
  | .probe _, cs => cs = []

/-- The numbers fit the members of the messages. -/
def Event.Fits : Event → Prop
  | .learn cxt list buffer samples =>
    cxt < 2 ^ 32 ∧ -2 ^ 31 ≤ list ∧ list < 2 ^ 31 ∧ buffer < 2 ^ 64 ∧ samples.length < 2 ^ 32 ∧
      samples.flatten.length < 2 ^ 32
  | .age cxt buffer table handles =>
    cxt < 2 ^ 32 ∧ buffer < 2 ^ 64 ∧ -2 ^ 31 ≤ table ∧ table < 2 ^ 31 ∧ handles.length < 2 ^ 30 ∧
      ∀ h ∈ handles, h < 2 ^ 32
  | .ports changes => changes.length < 2 ^ 29 ∧ ∀ c ∈ changes, c.1 < 2 ^ 31
  | .probe x => x < 2 ^ 64

/-- The number of bytes after the header. -/
def Event.size : Event → Nat
  | .learn _ _ _ samples => samples.flatten.length
  | .age _ _ _ handles => 4 * handles.length
  | .ports changes => 8 * changes.length
  | .probe _ => 0

/-- Whether a controller with callbacks for these kinds is told. -/
def Event.wanted (learn age port : Bool) : Event → Bool
  | .learn .. => learn
  | .age .. => age
  | .ports _ => port
  | .probe _ => false

/-! ### PI -/

/-- What PI is told. -/
inductive PiEvent
  | digest (dev pipe id msg num size : Nat) (entries : Bytes)
  | idle (dev table handle : Nat)
deriving DecidableEq, Repr

/-- PI is told what happened on device `dev`.  `digest`: number and size of the digest that a list of a context is for PI,
`table`: number of a table. -/
def PiTells (digest : Nat → Int → Option (Nat × Nat)) (table : Nat → Int → Option Nat) (dev : Nat) :
    Event → List PiEvent → Prop
  | .learn cxt list buffer samples, es =>
    es = match digest cxt list with
      | some (id, size) => [.digest dev cxt id buffer samples.length size samples.flatten]
      | none => []
  | .age cxt _ tab handles, es =>
    es = match table cxt tab with
      | some id => handles.map (.idle dev id)
      | none => []
  | _, es => es = []

/-- What happens in the switch, in order: notifications, and the steps of an exchange of programs (`load_new_config`,
`swap_configs`, `do_swap`) in a context. -/
inductive Item
  | event (e : Event)
  | loaded (cxt : Nat)
  | requested (cxt : Nat)
  | completed (cxt : Nat)
deriving DecidableEq, Repr

/-- An exchange is going on in context 0 after these. -/
def swapping : List Item → Bool
  | [] => false
  | l => l.foldl (fun b i => match i with
      | .loaded 0 => true
      | .completed 0 => false
      | _ => b) false

end Bm.Notify.Spec
