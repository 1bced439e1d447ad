import Verif.Model.Notify
import Verif.Lemmas.Elog

/-! # Messages and their receivers -/

namespace Bm.Notify
open Elog Bm.Notify.Spec

/-! ## Members of the headers -/

theorem unle_le8 {n : Nat} (h : n < 2 ^ 64) : unle (le 8 n) = n := by
  rw [unle_le, Nat.mod_eq_of_lt]
  exact h

theorem unle_le4 {n : Nat} (h : n < 2 ^ 32) : unle (le 4 n) = n := by
  rw [unle_le, Nat.mod_eq_of_lt]
  exact h

theorem drop_skip {α} {a : List α} {k n : Nat} (h : a.length = k) (b : List α) (hn : k ≤ n) :
    (a ++ b).drop n = b.drop (n - k) := by
  subst h
  rw [List.drop_append, List.drop_of_length_le hn, List.nil_append]

theorem take_here {α} {a : List α} {k : Nat} (h : a.length = k) (b : List α) : ((a ++ b).drop 0).take k = a := by
  subst h; simp

/-- The header of a notification about learning. -/
def learnHdr (dev cxt : Nat) (list : Int) (id num : Nat) : Bytes :=
  lea ++ (le 8 dev ++ (le 4 cxt ++ (i32 list ++ (le 8 id ++ le 4 num))))

/-- The header of a notification about ageing. -/
def ageHdr (dev cxt buffer : Nat) (table : Int) (num : Nat) : Bytes :=
  age ++ (le 8 dev ++ (le 4 cxt ++ (le 8 buffer ++ (i32 table ++ le 4 num))))

/-- The header of a notification about ports. -/
def portHdr (dev num : Nat) : Bytes := prt ++ (le 8 dev ++ (le 4 num ++ List.replicate 16 0))

theorem learnHdr_length (dev cxt list id num) : (learnHdr dev cxt list id num).length = 32 := by
  simp [learnHdr, lea, le_length, i32_length]

theorem ageHdr_length (dev cxt b t n) : (ageHdr dev cxt b t n).length = 32 := by
  simp [ageHdr, age, le_length, i32_length]

theorem portHdr_length (dev n) : (portHdr dev n).length = 32 := by
  simp [portHdr, prt, le_length]

theorem learnHdr_members {dev cxt : Nat} {list : Int} {id num : Nat} (h1 : dev < 2 ^ 64) (h2 : cxt < 2 ^ 32)
    (h3 : I32 list) (h4 : id < 2 ^ 64) (h5 : num < 2 ^ 32) (p : Bytes) :
    (learnHdr dev cxt list id num ++ p).take 4 = lea ∧ member (learnHdr dev cxt list id num ++ p) 4 8 = dev ∧
    member (learnHdr dev cxt list id num ++ p) 12 4 = cxt ∧ intMember (learnHdr dev cxt list id num ++ p) 16 = list ∧
    member (learnHdr dev cxt list id num ++ p) 20 8 = id ∧ member (learnHdr dev cxt list id num ++ p) 28 4 = num := by
  have l0 : lea.length = 4 := rfl
  simp only [learnHdr, List.append_assoc, member, intMember]
  refine ⟨List.take_left' l0, ?_, ?_, ?_, ?_, ?_⟩
  · rw [drop_skip l0 _ (by decide), take_here (le_length 8 _), unle_le8 h1]
  · rw [drop_skip l0 _ (by decide), drop_skip (le_length 8 _) _ (by decide), take_here (le_length 4 _), unle_le4 h2]
  · rw [drop_skip l0 _ (by decide), drop_skip (le_length 8 _) _ (by decide), drop_skip (le_length 4 _) _ (by decide),
      take_here (i32_length _), signed_i32 h3]
  · rw [drop_skip l0 _ (by decide), drop_skip (le_length 8 _) _ (by decide), drop_skip (le_length 4 _) _ (by decide),
      drop_skip (i32_length _) _ (by decide), take_here (le_length 8 _), unle_le8 h4]
  · rw [drop_skip l0 _ (by decide), drop_skip (le_length 8 _) _ (by decide), drop_skip (le_length 4 _) _ (by decide),
      drop_skip (i32_length _) _ (by decide), drop_skip (le_length 8 _) _ (by decide), take_here (le_length 4 _),
      unle_le4 h5]

theorem ageHdr_members {dev cxt : Nat} {table : Int} {id num : Nat} (h1 : dev < 2 ^ 64) (h2 : cxt < 2 ^ 32)
    (h3 : I32 table) (h4 : id < 2 ^ 64) (h5 : num < 2 ^ 32) (p : Bytes) :
    (ageHdr dev cxt id table num ++ p).take 4 = age ∧ member (ageHdr dev cxt id table num ++ p) 4 8 = dev ∧
    member (ageHdr dev cxt id table num ++ p) 12 4 = cxt ∧ intMember (ageHdr dev cxt id table num ++ p) 24 = table ∧
    member (ageHdr dev cxt id table num ++ p) 16 8 = id ∧ member (ageHdr dev cxt id table num ++ p) 28 4 = num := by
  have l0 : age.length = 4 := rfl
  simp only [ageHdr, List.append_assoc, member, intMember]
  refine ⟨List.take_left' l0, ?_, ?_, ?_, ?_, ?_⟩
  · rw [drop_skip l0 _ (by decide), take_here (le_length 8 _), unle_le8 h1]
  · rw [drop_skip l0 _ (by decide), drop_skip (le_length 8 _) _ (by decide), take_here (le_length 4 _), unle_le4 h2]
  · rw [drop_skip l0 _ (by decide), drop_skip (le_length 8 _) _ (by decide), drop_skip (le_length 4 _) _ (by decide),
      drop_skip (le_length 8 _) _ (by decide), take_here (i32_length _), signed_i32 h3]
  · rw [drop_skip l0 _ (by decide), drop_skip (le_length 8 _) _ (by decide), drop_skip (le_length 4 _) _ (by decide),
      take_here (le_length 8 _), unle_le8 h4]
  · rw [drop_skip l0 _ (by decide), drop_skip (le_length 8 _) _ (by decide), drop_skip (le_length 4 _) _ (by decide),
      drop_skip (le_length 8 _) _ (by decide), drop_skip (i32_length _) _ (by decide), take_here (le_length 4 _),
      unle_le4 h5]

theorem portHdr_members {dev num : Nat} (h1 : dev < 2 ^ 64) (h2 : num < 2 ^ 32) (p : Bytes) :
    (portHdr dev num ++ p).take 4 = prt ∧ member (portHdr dev num ++ p) 4 8 = dev ∧
    member (portHdr dev num ++ p) 12 4 = num := by
  have l0 : prt.length = 4 := rfl
  simp only [portHdr, List.append_assoc, member]
  refine ⟨List.take_left' l0, ?_, ?_⟩
  · rw [drop_skip l0 _ (by decide), take_here (le_length 8 _), unle_le8 h1]
  · rw [drop_skip l0 _ (by decide), drop_skip (le_length 8 _) _ (by decide), take_here (le_length 4 _), unle_le4 h2]

theorem swap_members {dev cxt : Nat} {st : Int} (h2 : cxt < 2 ^ 32) (h3 : I32 st) :
    (swapMessage dev cxt st).length = 32 ∧ (swapMessage dev cxt st).take 4 = swp ∧
    member (swapMessage dev cxt st) 12 4 = cxt ∧ intMember (swapMessage dev cxt st) 16 = st := by
  have l0 : swp.length = 4 := rfl
  simp only [swapMessage, member, intMember]
  refine ⟨by simp [swp, le_length, i32_length], List.take_left' l0, ?_, ?_⟩
  · rw [drop_skip l0 _ (by decide), drop_skip (le_length 8 _) _ (by decide), take_here (le_length 4 _), unle_le4 h2]
  · rw [drop_skip l0 _ (by decide), drop_skip (le_length 8 _) _ (by decide), drop_skip (le_length 4 _) _ (by decide),
      take_here (i32_length _), signed_i32 h3]

theorem probe_take (dev x : Nat) : (probeMessage dev x).take 4 = tst ∧ (probeMessage dev x).length = 32 := by
  refine ⟨List.take_left' rfl, ?_⟩
  simp [probeMessage, tst, le_length]

theorem buf_id {b : Bytes} (h : b.length < 2 ^ 32) : buf b = b := by
  rw [buf, Nat.mod_eq_of_lt h, List.take_length]

/-! ## Payloads -/

theorem word_le4 {n : Nat} (h : n < 2 ^ 32) : word (le 4 n) = some n := by
  simp only [le, word, Option.some.injEq]
  have e : ∀ k : Nat, (k % 256).toUInt8.toNat = k % 256 := fun k => by simp [Nat.toUInt8]
  rw [e, e, e, e]
  omega

theorem flatten_slice {α} {k : Nat} : ∀ {l : List (List α)} (_ : ∀ x ∈ l, x.length = k) {i : Nat} {x : List α}
    (_ : l[i]? = some x) (q : List α), ((l.flatten ++ q).drop (k * i)).take k = x
  | [], _, i, x, hx, q => by simp at hx
  | y :: l, hl, 0, x, hx, q => by
    simp only [List.getElem?_cons_zero, Option.some.injEq] at hx
    subst hx
    rw [List.flatten_cons, List.append_assoc, Nat.mul_zero]
    exact take_here (hl _ (by simp)) _
  | y :: l, hl, i + 1, x, hx, q => by
    simp only [List.getElem?_cons_succ] at hx
    rw [List.flatten_cons, List.append_assoc, drop_skip (hl y (by simp)) _ (by rw [Nat.mul_succ]; omega),
      show k * (i + 1) - k = k * i by rw [Nat.mul_succ]; omega]
    exact flatten_slice (fun z hz => hl z (by simp [hz])) hx q

theorem flatten_length {α} {k : Nat} : ∀ {l : List (List α)} (_ : ∀ x ∈ l, x.length = k), l.flatten.length = k * l.length
  | [], _ => by simp
  | y :: l, hl => by
    rw [List.flatten_cons, List.length_append, hl y (by simp), flatten_length (fun z hz => hl z (by simp [hz])),
      List.length_cons, Nat.mul_succ, Nat.add_comm]

theorem handles_length (hs : List Nat) : (hs.map (le 4)).flatten.length = 4 * hs.length := by
  rw [flatten_length (k := 4) (by simp [le_length]), List.length_map]

theorem oneStatus_length (c : Nat × Bool) : (oneStatus c).length = 8 := by
  simp [oneStatus, i32_length]

theorem statuses_all (cs : List (Nat × Bool)) : ∀ x ∈ cs.map oneStatus, x.length = 8 := by
  intro x hx
  obtain ⟨c, -, rfl⟩ := List.mem_map.1 hx
  exact oneStatus_length c

theorem statuses_length (cs : List (Nat × Bool)) : (cs.map oneStatus).flatten.length = 8 * cs.length := by
  rw [flatten_length (statuses_all cs), List.length_map]

/-! ## Receiving -/

/-- The sizes of the buffers. -/
def Rx.WF (r : Rx) : Prop := r.hdr.length = 32 ∧ r.data.length = 4096

theorem Rx.recv_wf {r : Rx} (h : r.WF) (m : Bytes) : (r.recv m).WF := by
  obtain ⟨h1, h2⟩ := h
  constructor
  · simp only [Rx.recv, List.length_append, List.length_take, List.length_drop, h1]; omega
  · simp only [Rx.recv, List.length_append, List.length_take, List.length_drop, h2]; omega

theorem Rx.recv_hdr {r : Rx} (h : r.WF) {a : Bytes} (ha : a.length = 32) (p : Bytes) : (r.recv (a ++ p)).hdr = a := by
  have : 32 ≤ (a ++ p).length := by simp [ha]
  simp only [Rx.recv]
  rw [List.drop_of_length_le (by rw [h.1]; exact this), List.append_nil]
  exact List.take_left' ha

theorem Rx.recv_data {r : Rx} (h : r.WF) {a : Bytes} (ha : a.length = 32) {p : Bytes} (hp : p.length ≤ 4096) :
    (r.recv (a ++ p)).data = p ++ r.data.drop p.length := by
  simp only [Rx.recv]
  rw [drop_skip ha _ (Nat.le_refl _), Nat.sub_self, List.drop_zero, List.take_of_length_le hp]
  congr 2
  rw [List.length_append, ha]; omega

theorem Rx.recv_long {r : Rx} (h : r.WF) {a : Bytes} (ha : a.length = 32) {p : Bytes} (hp : 4096 ≤ p.length) :
    (r.recv (a ++ p)).data = p.take 4096 := by
  simp only [Rx.recv]
  rw [drop_skip ha _ (Nat.le_refl _), Nat.sub_self, List.drop_zero, List.drop_of_length_le, List.append_nil]
  rw [h.2, List.length_append, ha]; omega

theorem learnCall_recv {r : Rx} (h : r.WF) {dev cxt : Nat} {list : Int} {id num : Nat} (h1 : dev < 2 ^ 64)
    (h2 : cxt < 2 ^ 32) (h3 : I32 list) (h4 : id < 2 ^ 64) (h5 : num < 2 ^ 32) (p : Bytes) :
    learnCall (r.recv (learnHdr dev cxt list id num ++ p)) =
      .learn dev cxt list id num (r.recv (learnHdr dev cxt list id num ++ p)).data := by
  have m := learnHdr_members h1 h2 h3 h4 h5 []
  rw [List.append_nil] at m
  rw [learnCall, Rx.recv_hdr h (learnHdr_length ..), m.2.1, m.2.2.1, m.2.2.2.1, m.2.2.2.2.1, m.2.2.2.2.2]

theorem ageCall_recv {r : Rx} (h : r.WF) {dev cxt : Nat} {t : Int} {id num : Nat} (h1 : dev < 2 ^ 64)
    (h2 : cxt < 2 ^ 32) (h3 : I32 t) (h4 : id < 2 ^ 64) (h5 : num < 2 ^ 32) (p : Bytes) :
    ageCall (r.recv (ageHdr dev cxt id t num ++ p)) =
      .age dev cxt t id num (r.recv (ageHdr dev cxt id t num ++ p)).data := by
  have m := ageHdr_members h1 h2 h3 h4 h5 []
  rw [List.append_nil] at m
  rw [ageCall, Rx.recv_hdr h (ageHdr_length ..), m.2.1, m.2.2.1, m.2.2.2.1, m.2.2.2.2.1, m.2.2.2.2.2]

theorem mapM_range {α} (f : Nat → Option α) : ∀ (n : Nat) (l : List α), l.length = n →
    (∀ i x, l[i]? = some x → f i = some x) → (List.range n).mapM f = some l := by
  intro n
  induction n with
  | zero => intro l hl _; obtain rfl := List.length_eq_zero_iff.1 hl; rfl
  | succ n ih =>
    intro l hl hf
    obtain ⟨l', x, rfl⟩ : ∃ l' x, l = l' ++ [x] := by
      rcases List.eq_nil_or_concat l with rfl | ⟨l', x, rfl⟩
      · simp at hl
      · exact ⟨l', x, by simp⟩
    have hl' : l'.length = n := by simpa using hl
    rw [List.range_succ, List.mapM_append, ih l' hl' (fun i y hy => hf i y (by
      rw [List.getElem?_append_left ((List.getElem?_eq_some_iff.1 hy).1)]; exact hy))]
    have := hf n x (by rw [← hl']; simp)
    simp [this]

theorem portCalls_recv {r : Rx} (h : r.WF) {dev : Nat} {cs : List (Nat × Bool)} (h1 : dev < 2 ^ 64)
    (hc : ∀ c ∈ cs, c.1 < 2 ^ 31) (hl : 8 * cs.length ≤ 4096) :
    portCalls (r.recv (portHdr dev cs.length ++ (cs.map oneStatus).flatten)) =
      some (cs.map fun c => .port dev c.1 c.2) := by
  have hlen := statuses_length cs
  have m := portHdr_members h1 (num := cs.length) (by omega) []
  rw [List.append_nil] at m
  have hd := Rx.recv_data h (portHdr_length dev cs.length) (p := (cs.map oneStatus).flatten) (by omega)
  have hh := Rx.recv_hdr h (portHdr_length dev cs.length) (cs.map oneStatus).flatten
  have hw := (Rx.recv_wf h (portHdr dev cs.length ++ (cs.map oneStatus).flatten)).2
  rw [portCalls, hh, m.2.2]
  refine mapM_range _ _ _ (by simp) (fun i x hx => ?_)
  rw [List.getElem?_map, Option.map_eq_some_iff] at hx
  obtain ⟨c, hci, rfl⟩ := hx
  have hlt : i < cs.length := (List.getElem?_eq_some_iff.1 hci).1
  rw [statusAt, hw, if_pos (by omega), hh, m.2.1]
  have hs := flatten_slice (k := 8) (l := cs.map oneStatus) (statuses_all cs) (i := i) (x := oneStatus c)
    (by rw [List.getElem?_map, hci]; rfl) (r.data.drop (cs.map oneStatus).flatten.length)
  have ha : intMember (r.recv (portHdr dev cs.length ++ (cs.map oneStatus).flatten)).data (8 * i) = c.1 := by
    rw [hd, intMember]
    have := congrArg (List.take 4) hs
    rw [List.take_take] at this
    rw [show (4 : Nat) = min 4 8 from rfl, this, oneStatus, List.take_left' (i32_length _), signed_i32]
    have := hc c (List.mem_of_getElem? hci)
    constructor <;> omega
  have hb : intMember (r.recv (portHdr dev cs.length ++ (cs.map oneStatus).flatten)).data (8 * i + 4)
      = if c.2 then 1 else 0 := by
    rw [hd, intMember]
    have := congrArg (List.drop 4) hs
    rw [List.drop_take, List.drop_drop] at this
    rw [show (4 : Nat) = 8 - 4 from rfl, this, oneStatus, List.drop_left' (i32_length _), signed_i32]
    split <;> constructor <;> omega
  rw [ha, hb]
  cases c.2 <;> rfl

end Bm.Notify
