import Verif.Model.Parser
import Verif.Lemmas.Header

/-! # Parser programs that stay within the packet, and packets that are emitted unchanged -/

namespace Bm.Parse

open Bm.Extract Bm.Header

/-- The size of the header is the width of its visible fields. -/
def Sized (h : Header) : Prop := total h.fields = 8 * h.nbytesPacket

/-- What the operations do not change: the places of the variable-length fields, the members of the
unions, the elements of the stacks. -/
structure Cfg where
  vl : List (Option Nat)
  members : List (List Nat)
  stk : List (List Nat)
  ustk : List (List Nat)

/-- The configuration of a header vector. -/
def cfg (p : Phv) : Cfg :=
  ⟨p.headers.map (·.vlOffset), p.unions.map (·.members), p.hstacks.map (·.elements),
    p.unionStacks.map (·.elements)⟩

/-- All headers have the right size. -/
def AllSized (p : Phv) : Prop := ∀ hd ∈ p.headers, Sized hd

/-- `q` has the configuration of `p`, and headers of the right size if `p` has. -/
structure Keeps (p q : Phv) : Prop where
  cfg : cfg q = cfg p
  sized : AllSized p → AllSized q

/-- Operations that cannot look outside the packet. -/
def Op.Safe (c : Cfg) : Op → Prop
  | .extract h _ => ∀ o, c.vl[h]? = some o → o = none
  | .extractVL h _ _ => ∀ o, c.vl[h]? = some o → o ≠ none
  | .extractStack s _ max => ∀ el, c.stk[s]? = some el → ∀ h ∈ el, ∀ o, c.vl[h]? = some o →
      (max = 0 ↔ o = none)
  | .extractUnionStack s i _ max => ∀ el, c.ustk[s]? = some el → ∀ u ∈ el, ∀ m, c.members[u]? = some m →
      ∀ h, m[i]? = some h → ∀ o, c.vl[h]? = some o → (max = 0 ↔ o = none)
  | .setLookahead _ _ l => l.bitOffset < 8 ∧ 8 * l.byteOffset + l.bitOffset + l.bitwidth ≤ 8 * l.nbytes
  | .phvOp f => ∀ p q, f p = some q → Keeps p q
  | _ => True

/-- The parts of a key that do not look at the packet. -/
def KeyEntry.Safe : KeyEntry → Prop
  | .lookahead _ => False
  | _ => True

/-- States that cannot look outside the packet. -/
def PState.Safe (c : Cfg) (s : PState) : Prop :=
  (∀ op ∈ s.ops, op.Safe c) ∧ ∀ es cs, s.sel = some (es, cs) → ∀ e ∈ es, e.Safe

/-- The header with a given id is valid. -/
def validAt (p : Phv) (h : Nat) : Bool := ((p.headers[h]?).map (·.isValid)).getD false

/-- Two states of a header with the same visible fields; the validity may differ. -/
structure Alike (x y : Header) : Prop where
  fields : visible y.fields = visible x.fields
  size : y.nbytesPacket = x.nbytesPacket
  vl : y.vlOffset = x.vlOffset
  isMeta : y.metadata = x.metadata
  wf : x.WF → y.WF

/-- The headers of the packet are not modified (their validity may be); metadata may. -/
def Unmodified (p q : Phv) : Prop :=
  ∀ (h : Nat) (x : Header), p.headers[h]? = some x → ∃ y, q.headers[h]? = some y ∧ y.metadata = x.metadata ∧
    (x.metadata = false → Alike x y)

/-- Operations that check the length of the headers they extract; look-ahead is not restricted. -/
def Op.Checked (c : Cfg) : Op → Prop
  | .setLookahead _ _ _ => True
  | op => op.Safe c

/-- Operations that skip no byte of the packet and modify no header but by extraction; `p` says which
headers are metadata. -/
def Op.Plain (p : Phv) : Op → Prop
  | .setLookahead h _ _ => ∀ x, p.headers[h]? = some x → x.metadata = true
  | .shift _ => False
  | .advance _ => False
  | .phvOp f => ∀ p q, f p = some q → Unmodified p q
  | _ => True

/-- Layouts without an empty field that starts inside a byte, of whole bytes. -/
structure Regular (x : Header) : Prop where
  wf : x.WF
  zero : ∀ n, ZeroOk (x.widths n) 0
  bytes : ∀ n : Int, 0 ≤ n → n % 8 = 0 → (x.widths n).sum % 8 = 0

end Bm.Parse
