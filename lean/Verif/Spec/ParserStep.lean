import Verif.Spec.Parser
import Verif.Spec.ParseVSet
import Verif.Lemmas.Phv

/-! # What the steps of a parser program do -/

namespace Bm.Parse

open Bm.Spec

/-- The bits of the packet from bit `a` after the current position on. -/
def bitsAt (pkt : Pkt) (pos a w : Nat) : List Bool := ((bytesBits pkt.mem).drop (8 * pos + a)).take w

/-- The bits of a field: the last `nbits` of its bytes. -/
def bitsOf (f : Field) : List Bool := (bytesBits f.bytes).drop (8 * f.bytes.length - f.nbits)

/-- Header `h` was extracted at the position of `st`, with widths `ws` of the visible fields, and is valid
now: every field has the bits of the packet at its place, and a number that these bits stand for. -/
structure Got (pkt : Pkt) (st st' : St) (h : Nat) (ws : List Nat) (y : Header) : Prop where
  found : st'.phv.headers[h]? = some y
  valid : y.isValid = true
  nometa : y.metadata = false
  pos : 8 * st'.pos = 8 * st.pos + ws.sum
  widths : (Header.visible y.fields).map (·.nbits) = ws
  bits : ∀ (i : Nat) (f : Field), (Header.visible y.fields)[i]? = some f →
    bitsOf f = bitsAt pkt st.pos (ws.take i).sum f.nbits
  value : ∀ f ∈ Header.visible y.fields, f.arith = true → f.kind.Fits f.value ∧ intBits f.nbits f.value = bitsOf f

/-- The part of a select key given by an entry: the bytes of a field, of a field of the last element of a
stack, or bits of the packet after the current position, padded in front to whole bytes. -/
inductive KeyPart (pkt : Pkt) (st : St) : KeyEntry → Bytes → Prop
  | field (h f : Nat) (x : Header) (fd : Field) : st.phv.headers[h]? = some x → x.fields[f]? = some fd →
      KeyPart pkt st (.field h f) fd.bytes
  | stackField (s f n h : Nat) (stk : Stack) (x : Header) (fd : Field) : st.phv.hstacks[s]? = some stk →
      stk.next = n + 1 → stk.elements[n]? = some h → st.phv.headers[h]? = some x → x.fields[f]? = some fd →
      KeyPart pkt st (.stackField s f) fd.bytes
  | unionStackField (s i f n u h : Nat) (stk : Stack) (un : HUnion) (x : Header) (fd : Field) :
      st.phv.unionStacks[s]? = some stk → stk.next = n + 1 → stk.elements[n]? = some u →
      st.phv.unions[u]? = some un → un.members[i]? = some h → st.phv.headers[h]? = some x →
      x.fields[f]? = some fd → KeyPart pkt st (.unionStackField s i f) fd.bytes
  | lookahead (off w : Nat) (b : Bytes) : 0 < w → 8 * st.pos + off + w ≤ 8 * pkt.mem.length →
      b.length = (w + 7) / 8 →
      bytesBits b = List.replicate (8 * ((w + 7) / 8) - w) false ++ bitsAt pkt st.pos off w →
      KeyPart pkt st (.lookahead (.make off w)) b

/-- The key of a select hits a case (`true`) or misses it (`false`).  For value sets see C39. -/
inductive Case.Hit (key : Bytes) : Case → Bool → Prop
  | eq (k : Bytes) (n : Option Nat) : key = k → Hit key (.const k n) true
  | ne (k : Bytes) (n : Option Nat) : key ≠ k → Hit key (.const k n) false
  | eqMask (k m : Bytes) (n : Option Nat) : k.length = m.length → key.length = k.length →
      VSet.Under (some (bytesBits m)) (bytesBits key) (bytesBits k) → Hit key (.masked k m n) true
  | neMask (k m : Bytes) (n : Option Nat) : k.length = m.length → key.length = k.length →
      ¬ VSet.Under (some (bytesBits m)) (bytesBits key) (bytesBits k) → Hit key (.masked k m n) false
  | vset (s : VSet.Shadow) (n : Option Nat) (b : Bool) : s.contains key = some b → Hit key (.vset s n) b

end Bm.Parse
