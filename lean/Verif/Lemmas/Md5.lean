import Verif.Model.Md5
import Verif.Spec.Md5

namespace Bm.Md5
open Spec

/-! ## One block -/

theorem rot_eq (a : UInt32) (n : Nat) (h0 : 0 < n) (h1 : n < 32) :
    ((a <<< UInt32.ofNat n) ||| ((a &&& 0xffffffff) >>> (32 - UInt32.ofNat n))).toBitVec = a.toBitVec.rotateLeft n := by
  have e1 : (UInt32.ofNat n).toBitVec = BitVec.ofNat 32 n := rfl
  have e2 : a &&& 0xffffffff = a := by
    apply UInt32.toBitVec_inj.1
    rw [UInt32.toBitVec_and]
    exact BitVec.and_allOnes
  have e3 : ((UInt32.ofNat n).toBitVec % 32).toNat = n := by
    rw [e1, BitVec.toNat_umod]
    simp
    omega
  have e4 : ((32 - UInt32.ofNat n).toBitVec % 32).toNat = 32 - n := by
    rw [BitVec.toNat_umod, UInt32.toBitVec_sub, BitVec.toNat_sub, e1]
    simp
    omega
  rw [e2, UInt32.toBitVec_or, UInt32.toBitVec_shiftLeft, UInt32.toBitVec_shiftRight]
  show a.toBitVec <<< ((UInt32.ofNat n).toBitVec % 32).toNat ||| a.toBitVec >>> ((32 - UInt32.ofNat n).toBitVec % 32).toNat = _
  rw [e3, e4, BitVec.rotateLeft_def, Nat.mod_eq_of_lt h1]

/-- The function used at step `i`. -/
def fnOf (i : Nat) : Fn :=
  match i / 16 with
  | 0 => .F
  | 1 => .G
  | 2 => if i % 2 = 0 then .H else .H2
  | _ => .I

theorem fn_eq (i : Nat) (x y z : UInt32) : ((fnOf i).ap x y z).toBitVec = aux (i / 16) x.toBitVec y.toBitVec z.toBitVec := by
  rcases h : i / 16 with _ | _ | _ | k
  · simp only [fnOf, h, Fn.ap, aux]
    apply BitVec.eq_of_getElem_eq
    intro j hj
    simp
    cases x.toBitVec[j] <;> cases y.toBitVec[j] <;> cases z.toBitVec[j] <;> rfl
  · simp only [fnOf, h, Fn.ap, aux]
    apply BitVec.eq_of_getElem_eq
    intro j hj
    simp
    cases x.toBitVec[j] <;> cases y.toBitVec[j] <;> cases z.toBitVec[j] <;> rfl
  · have e : fnOf i = if i % 2 = 0 then .H else .H2 := by simp [fnOf, h]
    rw [e]
    split <;> simp [Fn.ap, aux, BitVec.xor_assoc]
  · simp [fnOf, h, Fn.ap, aux]

theorem mix_eq (i : Nat) (a b c d x t : UInt32) (s : Nat) (h0 : 0 < s) (h1 : s < 32) :
    (mix (fnOf i) a b c d x t (UInt32.ofNat s)).toBitVec =
      b.toBitVec + (a.toBitVec + aux (i / 16) b.toBitVec c.toBitVec d.toBitVec + x.toBitVec + t.toBitVec).rotateLeft s := by
  simp only [mix]
  rw [UInt32.toBitVec_add, rot_eq _ _ h0 h1, BitVec.add_comm]
  simp only [UInt32.toBitVec_add, fn_eq, BitVec.add_assoc]

/-- Row `i` as in the RFC. -/
def rowOf (i : Nat) : Fn × Order × Nat × UInt32 × UInt32 :=
  (fnOf i, [Order.abcd, .dabc, .cdab, .bcda].getD (i % 4) .abcd, wordIx i, UInt32.ofNat (T.getD i 0), UInt32.ofNat (shift i))

theorem rows_eq : rows = (List.range 64).map rowOf := by decide +kernel

/-- The variables in the order of step `i`. -/
def view (i : Nat) (r : Regs) : Words :=
  match i % 4 with
  | 0 => (r.a.toBitVec, r.b.toBitVec, r.c.toBitVec, r.d.toBitVec)
  | 1 => (r.d.toBitVec, r.a.toBitVec, r.b.toBitVec, r.c.toBitVec)
  | 2 => (r.c.toBitVec, r.d.toBitVec, r.a.toBitVec, r.b.toBitVec)
  | _ => (r.b.toBitVec, r.c.toBitVec, r.d.toBitVec, r.a.toBitVec)

theorem shift_range : ∀ i < 64, 0 < shift i ∧ shift i < 32 := by decide

theorem step_view (X : Nat → UInt32) (i : Nat) (hi : i < 64) (r : Regs) :
    view (i + 1) (step (rowOf i).1 (rowOf i).2.1 (X (rowOf i).2.2.1) (rowOf i).2.2.2.1 (rowOf i).2.2.2.2 r) =
      op (fun k => (X k).toBitVec) (view i r) i := by
  obtain ⟨h0, h1⟩ := shift_range i hi
  have h4 : i % 4 = 0 ∨ i % 4 = 1 ∨ i % 4 = 2 ∨ i % 4 = 3 := by omega
  rcases h4 with h | h | h | h
  · have h' : (i + 1) % 4 = 1 := by omega
    simp [view, h, h', rowOf, step, op, mix_eq _ _ _ _ _ _ _ _ h0 h1]
    rfl
  · have h' : (i + 1) % 4 = 2 := by omega
    simp [view, h, h', rowOf, step, op, mix_eq _ _ _ _ _ _ _ _ h0 h1]
    rfl
  · have h' : (i + 1) % 4 = 3 := by omega
    simp [view, h, h', rowOf, step, op, mix_eq _ _ _ _ _ _ _ _ h0 h1]
    rfl
  · have h' : (i + 1) % 4 = 0 := by omega
    simp [view, h, h', rowOf, step, op, mix_eq _ _ _ _ _ _ _ _ h0 h1]
    rfl

theorem steps_view (X : Nat → UInt32) (n : Nat) (hn : n ≤ 64) (r : Regs) :
    view n (((List.range n).map rowOf).foldl (fun q x => step x.1 x.2.1 (X x.2.2.1) x.2.2.2.1 x.2.2.2.2 q) r) =
      (List.range n).foldl (op fun k => (X k).toBitVec) (view 0 r) := by
  induction n with
  | zero => rfl
  | succ n ih =>
    rw [List.range_succ, List.map_append, List.foldl_append, List.foldl_append, ← ih (by omega)]
    exact step_view X n (by omega) _

/-- The words of the RFC. -/
def Regs.words (r : Regs) : Words := (r.a.toBitVec, r.b.toBitVec, r.c.toBitVec, r.d.toBitVec)

theorem pass_eq (r : Regs) (ptr : Bytes) : (pass r ptr).words = compress r.words fun k => (getWord ptr k).toBitVec := by
  have h := steps_view (getWord ptr) 64 (Nat.le_refl _) r
  rw [← rows_eq] at h
  have e : view 0 r = r.words := rfl
  rw [e] at h
  simp only [compress, Regs.words, pass] at h ⊢
  rw [← h]
  simp [view, BitVec.add_comm]

/-! ## Words and bytes -/

theorem or_shift (a b n : Nat) (h : a < 2 ^ n) : a ||| b * 2 ^ n = a + b * 2 ^ n := by
  rw [Nat.or_comm, Nat.mul_comm, ← Nat.two_pow_add_eq_or_of_lt h, Nat.add_comm]

theorem leNat_take4 (l : Bytes) : leNat (l.take 4) =
    (l.getD 0 0).toNat + 256 * ((l.getD 1 0).toNat + 256 * ((l.getD 2 0).toNat + 256 * (l.getD 3 0).toNat)) := by
  rcases l with _ | ⟨x0, _ | ⟨x1, _ | ⟨x2, _ | ⟨x3, l⟩⟩⟩⟩ <;> simp [leNat]

theorem byte_shift (x : UInt8) (n : UInt32) (k : Nat) (hk : n.toNat = k) (h : k ≤ 24) :
    (x.toUInt32 <<< n).toNat = x.toNat * 2 ^ k := by
  have h1 := x.toNat_lt
  rw [UInt32.toNat_shiftLeft, hk, UInt8.toNat_toUInt32, Nat.shiftLeft_eq, Nat.mod_eq_of_lt (by omega : k < 32)]
  apply Nat.mod_eq_of_lt
  calc x.toNat * 2 ^ k < 2 ^ 8 * 2 ^ k := Nat.mul_lt_mul_of_pos_right h1 (Nat.two_pow_pos _)
    _ ≤ 2 ^ 8 * 2 ^ 24 := Nat.mul_le_mul_left _ (Nat.pow_le_pow_right (by omega) h)
    _ = 2 ^ 32 := by decide

theorem getWord_eq (p : Bytes) (k : Nat) : (getWord p k).toBitVec = word p 0 k := by
  have hd : ∀ j, (p.drop (64 * 0 + 4 * k)).getD j 0 = p.getD (k * 4 + j) 0 := by
    intro j
    simp [List.getD_eq_getElem?_getD, Nat.mul_comm]
  have b0 := (p.getD (k * 4 + 0) 0).toNat_lt
  have b1 := (p.getD (k * 4 + 1) 0).toNat_lt
  have b2 := (p.getD (k * 4 + 2) 0).toNat_lt
  have b3 := (p.getD (k * 4 + 3) 0).toNat_lt
  apply BitVec.eq_of_toNat_eq
  rw [word, leNat_take4, hd, hd, hd, hd, BitVec.toNat_ofNat]
  show (getWord p k).toNat = _
  rw [getWord, UInt32.toNat_or, UInt32.toNat_or, UInt32.toNat_or, byte_shift _ 8 8 rfl (by omega),
    byte_shift _ 16 16 rfl (by omega), byte_shift _ 24 24 rfl (by omega), UInt8.toNat_toUInt32]
  simp only [Nat.add_zero] at *
  rw [or_shift _ _ 8 b0, or_shift _ _ 16 (by omega), or_shift _ _ 24 (by omega)]
  omega

theorem putWord_eq (x : UInt32) : putWord x = leBytes 4 x.toNat := by
  have key : ∀ (s : UInt32) (k : Nat), s.toNat = k → k < 32 → (x >>> s).toUInt8 = UInt8.ofNat (x.toNat / 2 ^ k % 256) := by
    intro s k hs hk
    apply UInt8.toNat_inj.1
    rw [UInt32.toNat_toUInt8, UInt32.toNat_shiftRight, hs, Nat.mod_eq_of_lt hk, Nat.shiftRight_eq_div_pow,
      UInt8.toNat_ofNat']
    omega
  have k0 : x.toUInt8 = UInt8.ofNat (x.toNat % 256) := by
    apply UInt8.toNat_inj.1
    rw [UInt32.toNat_toUInt8, UInt8.toNat_ofNat']
    omega
  have e2 : x.toNat / 2 ^ 16 = x.toNat / 256 / 256 := by omega
  have e3 : x.toNat / 2 ^ 24 = x.toNat / 256 / 256 / 256 := by omega
  rw [putWord, k0, key 8 8 rfl (by omega), key 16 16 rfl (by omega), key 24 24 rfl (by omega), e2, e3]
  rfl

theorem leBytes_append (a b : Nat) : leBytes 4 a ++ leBytes 4 b = leBytes 8 (a % 2 ^ 32 + 2 ^ 32 * b) := by
  simp only [leBytes, List.cons_append, List.nil_append, List.cons.injEq, and_true]
  refine ⟨?_, ?_, ?_, ?_, ?_, ?_, ?_, ?_⟩ <;> congr 1 <;> omega

theorem leBytes_mod (n x : Nat) : leBytes n (x % 256 ^ n) = leBytes n x := by
  induction n generalizing x with
  | zero => rfl
  | succ n ih =>
    have e : x % 256 ^ (n + 1) / 256 = x / 256 % 256 ^ n := by
      rw [Nat.pow_succ, Nat.mul_comm, Nat.mod_mul_right_div_self]
    have e' : x % 256 ^ (n + 1) % 256 = x % 256 := Nat.mod_mod_of_dvd _ ⟨256 ^ n, by rw [Nat.pow_succ, Nat.mul_comm]⟩
    rw [leBytes, leBytes, e, e', ih]

theorem leBytes_length (n x : Nat) : (leBytes n x).length = n := by
  induction n generalizing x with
  | zero => rfl
  | succ n ih => simp [leBytes, ih]

/-! ## Blocks -/

theorem wordIx_lt (i : Nat) : wordIx i < 16 := by
  unfold wordIx
  split <;> omega

theorem compress_congr (w : Words) (X Y : Nat → BitVec 32) (h : ∀ k < 16, X k = Y k) : compress w X = compress w Y := by
  have : op X = op Y := by
    funext w i
    simp only [op, h _ (wordIx_lt i)]
  simp only [compress, this]

/-- The words after `n` blocks of `m`, from `w`. -/
def runN (n : Nat) (w : Words) (m : Bytes) : Words := (List.range n).foldl (fun w i => compress w (word m i)) w

theorem word_drop (m : Bytes) (n i k : Nat) : word (m.drop (64 * n)) i k = word m (n + i) k := by
  simp only [word, List.drop_drop]
  congr 4
  omega

theorem runN_add (n k : Nat) (w : Words) (m : Bytes) : runN (n + k) w m = runN k (runN n w m) (m.drop (64 * n)) := by
  simp only [runN, List.range_add, List.foldl_append, List.foldl_map]
  have : (fun (w : Words) i => compress w (word m (n + i))) = fun w i => compress w (word (m.drop (64 * n)) i) := by
    funext w i
    congr 1
    funext k
    exact (word_drop m n i k).symm
  rw [this]

theorem word_append (x y : Bytes) (i k : Nat) (h : 64 * (i + 1) ≤ x.length) (hk : k < 16) : word (x ++ y) i k = word x i k := by
  simp only [word]
  rw [List.drop_append_of_le_length (by omega), List.take_append_of_le_length (by rw [List.length_drop]; omega)]

theorem runN_append (n : Nat) (w : Words) (x y : Bytes) (h : 64 * n ≤ x.length) : runN n w (x ++ y) = runN n w x := by
  induction n with
  | zero => simp only [runN, List.range_zero, List.foldl_nil]
  | succ n ih =>
    simp only [runN, List.range_succ, List.foldl_append, List.foldl_cons, List.foldl_nil] at ih ⊢
    rw [ih (by omega)]
    exact compress_congr _ _ _ fun k hk => word_append x y n k h hk

theorem runN_one (w : Words) (m : Bytes) : runN 1 w m = compress w (word m 0) := by
  rw [runN, List.range_succ, List.foldl_append]
  simp only [List.range_zero, List.foldl_nil, List.foldl_cons]

theorem body_eq (n : Nat) (r : Regs) (m : Bytes) (h : 64 * n ≤ m.length) :
    ∃ r', body n r m = some (r', m.drop (64 * n)) ∧ r'.words = runN n r.words m := by
  induction n generalizing r m with
  | zero => exact ⟨r, rfl, rfl⟩
  | succ n ih =>
    obtain ⟨r', e, hw⟩ := ih (pass r m) (m.drop 64) (by rw [List.length_drop]; omega)
    refine ⟨r', ?_, ?_⟩
    · rw [body, if_neg (by omega), e, List.drop_drop]
      congr 3
      omega
    · rw [hw, Nat.add_comm n 1, runN_add, runN_one, pass_eq]
      congr 2
      funext k
      exact getWord_eq m k

/-! ## Data in pieces -/

/-- The initial words. -/
def iv : Words := (0x67452301, 0xefcdab89, 0x98badcfe, 0x10325476)

theorem poke_eq (buf : Bytes) (i : Nat) (x : Bytes) (h : i + x.length ≤ buf.length) :
    poke buf i x = some (buf.take i ++ x ++ buf.drop (i + x.length)) := if_pos h

theorem poke_length (buf : Bytes) (i : Nat) (x : Bytes) (h : i + x.length ≤ buf.length) :
    (buf.take i ++ x ++ buf.drop (i + x.length)).length = buf.length := by
  simp only [List.length_append, List.length_take, List.length_drop]
  omega

/-- The context after the bytes `m`. -/
structure Inv (c : Ctx) (m : Bytes) : Prop where
  lo : c.lo.toNat = m.length % 2 ^ 29
  hi : c.hi.toNat = m.length / 2 ^ 29 % 2 ^ 32
  words : c.regs.words = runN (m.length / 64) iv m
  len : c.buffer.length = 64
  buf : c.buffer.take (m.length % 64) = m.drop (64 * (m.length / 64))

theorem inv_init (buf : Bytes) (h : buf.length = 64) : Inv (init buf) [] where
  lo := rfl
  hi := rfl
  words := by
    rw [List.length_nil, Nat.zero_div, runN, List.range_zero, List.foldl_nil]
    rfl
  len := h
  buf := rfl

theorem blocks_eq (c : Ctx) (m data : Bytes) (n : Nat) (hm : m.length = 64 * n) (hw : c.regs.words = runN n iv m)
    (hl : c.buffer.length = 64) :
    ∃ r buf, blocks c data = some { c with regs := r, buffer := buf } ∧ r.words = runN ((m ++ data).length / 64) iv (m ++ data) ∧
      buf.length = 64 ∧ buf.take ((m ++ data).length % 64) = (m ++ data).drop (64 * ((m ++ data).length / 64)) := by
  have e1 : (m ++ data).length / 64 = n + data.length / 64 := by rw [List.length_append]; omega
  have e2 : (m ++ data).length % 64 = data.length % 64 := by rw [List.length_append]; omega
  have ed : ∀ k, (m ++ data).drop (64 * (n + k)) = data.drop (64 * k) := by
    intro k
    rw [Nat.mul_add, ← hm, List.drop_append, List.drop_eq_nil_of_le (by omega), List.nil_append]
    congr 1
    omega
  have er : runN (n + data.length / 64) iv (m ++ data) = runN (data.length / 64) c.regs.words data := by
    rw [runN_add, runN_append _ _ _ _ (by omega), ← hw]
    have := ed 0
    simp only [Nat.add_zero, Nat.mul_zero, List.drop_zero] at this
    rw [this]
  rw [e1, e2, ed, er]
  by_cases h : 64 ≤ data.length
  · obtain ⟨r, hb, hr⟩ := body_eq (data.length / 64) c.regs data (by omega)
    have ht : (data.drop (64 * (data.length / 64))).take (data.length % 64) = data.drop (64 * (data.length / 64)) := by
      apply List.take_of_length_le
      rw [List.length_drop]
      omega
    have hx : (data.drop (64 * (data.length / 64))).length = data.length % 64 := by rw [List.length_drop]; omega
    refine ⟨r, c.buffer.take 0 ++ data.drop (64 * (data.length / 64)) ++
      c.buffer.drop (0 + (data.drop (64 * (data.length / 64))).length), ?_, hr, ?_, ?_⟩
    · rw [blocks, if_pos h, hb]
      simp only [Option.bind_eq_bind, Option.bind_some, ht]
      rw [poke_eq _ _ _ (by omega)]
      rfl
    · rw [poke_length _ _ _ (by omega), hl]
    · rw [List.take_zero, List.nil_append, ← hx, List.take_left]
  · have h0 : data.length / 64 = 0 := by omega
    refine ⟨c.regs, c.buffer.take 0 ++ data ++ c.buffer.drop (0 + data.length), ?_, ?_, ?_, ?_⟩
    · rw [blocks, if_neg h]
      simp only [Option.bind_eq_bind]
      rw [poke_eq _ _ _ (by omega)]
      rfl
    · rw [h0, runN, List.range_zero, List.foldl_nil]
    · rw [poke_length _ _ _ (by omega), hl]
    · rw [h0, Nat.mul_zero, List.drop_zero, List.take_zero, List.nil_append, Nat.mod_eq_of_lt (by omega), List.take_left]

theorem and_63 (x : UInt32) : (x &&& 0x3f).toNat = x.toNat % 64 := by
  rw [UInt32.toNat_and]
  exact Nat.and_two_pow_sub_one_eq_mod x.toNat 6

theorem count_eq (c : Ctx) (m : Bytes) (n : Nat) (h : Inv c m) :
    (count c (UInt64.ofNat n)).lo.toNat = (m.length + n) % 2 ^ 29 ∧
      (n < 2 ^ 64 → (count c (UInt64.ofNat n)).hi.toNat = (m.length + n) / 2 ^ 29 % 2 ^ 32) ∧
      (count c (UInt64.ofNat n)).regs = c.regs ∧ (count c (UInt64.ofNat n)).buffer = c.buffer := by
  have hlo : (((c.lo.toUInt64 + UInt64.ofNat n) &&& 0x1fffffff).toUInt32).toNat = (m.length + n) % 2 ^ 29 := by
    rw [UInt64.toNat_toUInt32, UInt64.toNat_and]
    have e : ∀ y : Nat, y &&& (0x1fffffff : UInt64).toNat = y % 2 ^ 29 := fun y => Nat.and_two_pow_sub_one_eq_mod y 29
    rw [e, UInt64.toNat_add, UInt32.toNat_toUInt64, UInt64.toNat_ofNat', h.lo]
    omega
  refine ⟨hlo, ?_, rfl, rfl⟩
  intro hn
  show ((if ((c.lo.toUInt64 + UInt64.ofNat n) &&& 0x1fffffff).toUInt32 < c.lo then c.hi + 1 else c.hi).toUInt64 +
    (UInt64.ofNat n >>> 29)).toUInt32.toNat = _
  have hs : (UInt64.ofNat n >>> 29).toNat = n / 2 ^ 29 := by
    rw [UInt64.toNat_shiftRight, UInt64.toNat_ofNat', Nat.mod_eq_of_lt (by omega)]
    exact Nat.shiftRight_eq_div_pow n 29
  rw [UInt64.toNat_toUInt32, UInt64.toNat_add, hs, UInt32.toNat_toUInt64]
  have hh := h.hi
  have hl := h.lo
  by_cases hc : ((c.lo.toUInt64 + UInt64.ofNat n) &&& 0x1fffffff).toUInt32 < c.lo
  · rw [if_pos hc]
    rw [UInt32.lt_iff_toNat_lt, hlo, hl] at hc
    rw [UInt32.toNat_add, hh]
    simp only [UInt32.toNat_ofNat]
    omega
  · rw [if_neg hc]
    rw [UInt32.lt_iff_toNat_lt, hlo, hl] at hc
    rw [hh]
    omega

theorem update_eq (c : Ctx) (m data : Bytes) (h : Inv c m) (hn : data.length < 2 ^ 64) :
    ∃ c', update c data = some c' ∧ Inv c' (m ++ data) := by
  obtain ⟨c1, c2, c3, c4⟩ := count_eq c m data.length h
  have c2 := c2 hn
  have hu : (c.lo &&& 0x3f).toNat = m.length % 64 := by rw [and_63, h.lo]; omega
  have hl := h.len
  generalize hk : count c (UInt64.ofNat data.length) = k at c1 c2 c3 c4
  simp only [update, hu, hk]
  have elen : (m ++ data).length = m.length + data.length := List.length_append
  by_cases h0 : m.length % 64 ≠ 0
  · rw [if_pos h0]
    by_cases hs : data.length < 64 - m.length % 64
    · rw [if_pos hs, poke_eq _ _ _ (by rw [c4]; omega)]
      refine ⟨_, rfl, ?_⟩
      have hd : (m ++ data).length / 64 = m.length / 64 := by omega
      have hm : (m ++ data).length % 64 = m.length % 64 + data.length := by omega
      constructor
      · rw [c1, elen]
      · rw [c2, elen]
      · show k.regs.words = _
        rw [c3, h.words, hd, runN_append _ _ _ _ (by omega)]
      · show (List.length (_ ++ _ ++ _)) = 64
        rw [poke_length _ _ _ (by rw [c4]; omega), c4, hl]
      · show List.take _ (_ ++ _ ++ _) = _
        rw [c4, h.buf, hd, hm, List.drop_append_of_le_length (by omega)]
        have : m.length % 64 + data.length = (m.drop (64 * (m.length / 64)) ++ data).length := by
          rw [List.length_append, List.length_drop]; omega
        rw [this, List.take_left]
    · rw [if_neg hs]
      have ht : (data.take (64 - m.length % 64)).length = 64 - m.length % 64 := by rw [List.length_take]; omega
      rw [poke_eq _ _ _ (by rw [c4, ht]; omega), c4, h.buf, ht]
      have hz : c.buffer.drop (m.length % 64 + (64 - m.length % 64)) = [] := List.drop_eq_nil_of_le (by omega)
      rw [hz, List.append_nil, c3]
      have hb : (m.drop (64 * (m.length / 64)) ++ data.take (64 - m.length % 64)).length = 64 := by
        rw [List.length_append, ht, List.length_drop]; omega
      obtain ⟨r, hr, hw⟩ := body_eq 1 c.regs (m.drop (64 * (m.length / 64)) ++ data.take (64 - m.length % 64)) (by omega)
      simp only [Option.bind_eq_bind, Option.bind_some, hr]
      have ea : m ++ data = (m ++ data.take (64 - m.length % 64)) ++ data.drop (64 - m.length % 64) := by
        rw [List.append_assoc, List.take_append_drop]
      have hlen : (m ++ data.take (64 - m.length % 64)).length = 64 * (m.length / 64 + 1) := by
        rw [List.length_append, ht]; omega
      obtain ⟨r', buf', e1, e2, e3, e4⟩ := blocks_eq
        { k with regs := r, buffer := m.drop (64 * (m.length / 64)) ++ data.take (64 - m.length % 64) }
        (m ++ data.take (64 - m.length % 64)) (data.drop (64 - m.length % 64)) _ hlen (by
          show r.words = _
          rw [hw, h.words, runN_add, runN_append (m.length / 64) _ m _ (by omega), List.drop_append_of_le_length (by omega)]) hb
      rw [← ea] at e2 e4
      refine ⟨_, e1, ?_, ?_, e2, e3, e4⟩
      · show k.lo.toNat = _
        rw [c1, elen]
      · show k.hi.toNat = _
        rw [c2, elen]
  · rw [if_neg h0]
    obtain ⟨r', buf', e1, e2, e3, e4⟩ := blocks_eq k m data (m.length / 64) (by omega) (by rw [c3, h.words]) (by rw [c4, hl])
    refine ⟨_, e1, ?_, ?_, e2, e3, e4⟩
    · show k.lo.toNat = _
      rw [c1, elen]
    · show k.hi.toNat = _
      rw [c2, elen]

theorem updates_eq (pieces : List Bytes) (c : Ctx) (m : Bytes) (h : Inv c m) (hn : ∀ x ∈ pieces, x.length < 2 ^ 64) :
    ∃ c', updates c pieces = some c' ∧ Inv c' (m ++ pieces.flatten) := by
  induction pieces generalizing c m with
  | nil => exact ⟨c, rfl, by simpa using h⟩
  | cons x xs ih =>
    obtain ⟨c1, e1, h1⟩ := update_eq c m x h (hn x (by simp))
    obtain ⟨c2, e2, h2⟩ := ih c1 (m ++ x) h1 (fun y hy => hn y (by simp [hy]))
    refine ⟨c2, ?_, by simpa using h2⟩
    simp only [updates, e1, Option.bind_eq_bind, Option.bind_some, e2]

theorem zeros_spec (n : Nat) : (n + 1 + zeros n + 8) % 64 = 0 ∧ zeros n < 64 := by
  unfold zeros
  omega

theorem length_bits (c : Ctx) (m : Bytes) (h : Inv c m) : putWord (c.lo <<< 3) ++ putWord c.hi = leBytes 8 (8 * m.length) := by
  have hl := h.lo
  have hh := h.hi
  have e : (c.lo <<< 3).toNat = 8 * m.length % 2 ^ 32 := by
    rw [UInt32.toNat_shiftLeft]
    show c.lo.toNat <<< 3 % 2 ^ 32 = _
    rw [Nat.shiftLeft_eq, hl]
    omega
  rw [putWord_eq, putWord_eq, leBytes_append, ← leBytes_mod 8 (8 * m.length), e, hh]
  congr 1
  show _ = 8 * m.length % 2 ^ 64
  omega

/-- The last block or blocks. -/
theorem final_eq (c : Ctx) (m : Bytes) (h : Inv c m) : final c = some (md5 m) := by
  have hu : (c.lo &&& 0x3f).toNat = m.length % 64 := by rw [and_63, h.lo]; omega
  have hl := h.len
  have hL := length_bits c m h
  have hL8 : (putWord (c.lo <<< 3) ++ putWord c.hi).length = 8 := rfl
  simp only [final, hu, Option.bind_eq_bind]
  rw [poke_eq _ _ _ (by simp; omega), Option.bind_some, h.buf]
  generalize ht : m.drop (64 * (m.length / 64)) = t
  have htl : t.length = m.length % 64 := by rw [← ht, List.length_drop]; omega
  simp only [List.length_singleton]
  -- the padded message from its last incomplete block on
  have hpad : ∃ P, pad m = m ++ P ∧ P = [128] ++ List.replicate (zeros m.length) 0 ++ leBytes 8 (8 * m.length) :=
    ⟨_, by simp only [pad, List.append_assoc], rfl⟩
  obtain ⟨P, hP, hP'⟩ := hpad
  have hPl : P.length = 1 + zeros m.length + 8 := by
    rw [hP']; simp only [List.length_append, List.length_replicate, leBytes_length, List.length_singleton]
  have key : ∀ (k : Nat) (r : Regs), (m ++ P).length = 64 * (m.length / 64 + k) → r.words = runN k c.regs.words (t ++ P) →
      md5 m = putWord r.a ++ putWord r.b ++ putWord r.c ++ putWord r.d := by
    intro k r hk hr
    have : chain (pad m) = r.words := by
      rw [hP, hr, h.words, ← ht, ← List.drop_append_of_le_length (by omega), ← runN_append (m.length / 64) iv m P (by omega),
        ← runN_add, chain, runN, hk, Nat.mul_div_cancel_left _ (by omega : 0 < 64)]
      rfl
    rw [md5, this, putWord_eq, putWord_eq, putWord_eq, putWord_eq]
    rfl
  have hz := zeros_spec m.length
  generalize hb : c.buffer.drop (m.length % 64 + 1) = b
  have hbl : b.length = 64 - (m.length % 64 + 1) := by rw [← hb, List.length_drop]; omega
  have hfull : (t ++ [128] ++ b).length = 64 := by
    simp only [List.length_append, List.length_singleton]; omega
  by_cases hs : 64 - (m.length % 64 + 1) < 8
  · have hzv : zeros m.length = 119 - m.length % 64 := by unfold zeros; omega
    simp only [finalPad, Option.bind_eq_bind]
    rw [if_pos hs, poke_eq _ _ _ (by rw [List.length_replicate]; omega), Option.bind_some]
    have hb1 : (t ++ [128] ++ b).take (m.length % 64 + 1) = t ++ [128] := by
      rw [← htl, ← List.length_singleton (a := (128 : UInt8)), ← List.length_append, List.take_left]
    have hb2 : (t ++ [128] ++ b).drop (m.length % 64 + 1 + (List.replicate (64 - (m.length % 64 + 1)) (0 : UInt8)).length) = [] := by
      apply List.drop_eq_nil_of_le
      rw [List.length_replicate]; omega
    rw [hb1, hb2, List.append_nil]
    generalize hB : t ++ [128] ++ List.replicate (64 - (m.length % 64 + 1)) (0 : UInt8) = B
    have hBl : B.length = 64 := by
      rw [← hB]; simp only [List.length_append, List.length_singleton, List.length_replicate]; omega
    obtain ⟨r1, e1, w1⟩ := body_eq 1 c.regs B (by omega)
    rw [e1, Option.bind_some]
    simp only
    rw [poke_eq _ _ _ (by rw [List.length_replicate]; omega), Option.bind_some]
    simp only [Option.pure_def, Option.bind_some, List.take_zero, List.nil_append]
    rw [poke_eq _ _ _ (by rw [hL8]; simp; omega), Option.bind_some, hL8, hL]
    have hB2 : ((List.replicate (64 - 8) (0 : UInt8) ++ B.drop (0 + (List.replicate (64 - 8) (0 : UInt8)).length)).take 56 ++
        leBytes 8 (8 * m.length) ++ (List.replicate (64 - 8) (0 : UInt8) ++ B.drop (0 + (List.replicate (64 - 8) (0 : UInt8)).length)).drop (56 + 8)) =
        List.replicate 56 0 ++ leBytes 8 (8 * m.length) := by
      rw [List.take_append_of_le_length (by simp), List.take_of_length_le (by simp), List.drop_eq_nil_of_le, List.append_nil]
      rw [List.length_append, List.length_drop, List.length_replicate]; omega
    rw [hB2]
    obtain ⟨r2, e2, w2⟩ := body_eq 1 r1 (List.replicate 56 (0 : UInt8) ++ leBytes 8 (8 * m.length)) (by
      rw [List.length_append, leBytes_length, List.length_replicate]; omega)
    rw [e2, Option.bind_some]
    congr 1
    symm
    apply key 2 r2
    · rw [List.length_append, hPl]; omega
    · have hsplit : t ++ P = B ++ (List.replicate 56 0 ++ leBytes 8 (8 * m.length)) := by
        rw [← hB, hP', hzv]
        have : 119 - m.length % 64 = 64 - (m.length % 64 + 1) + 56 := by omega
        rw [this, ← List.replicate_append_replicate]
        simp only [List.append_assoc]
      rw [hsplit, (by rfl : 2 = 1 + 1), runN_add, runN_append _ _ _ _ (by omega), ← w1, w2]
      congr 1
      rw [List.drop_append, List.drop_eq_nil_of_le (by omega), hBl]
      rfl
  · have hzv : zeros m.length = 55 - m.length % 64 := by unfold zeros; omega
    simp only [finalPad, Option.bind_eq_bind]
    rw [if_neg hs, poke_eq _ _ _ (by rw [List.length_replicate]; omega), Option.bind_some]
    have hb1 : (t ++ [128] ++ b).take (m.length % 64 + 1) = t ++ [128] := by
      rw [← htl, ← List.length_singleton (a := (128 : UInt8)), ← List.length_append, List.take_left]
    rw [hb1]
    simp only [Option.pure_def, Option.bind_some]
    generalize hB : t ++ [128] ++ List.replicate (64 - (m.length % 64 + 1) - 8) (0 : UInt8) = B
    have hBl : B.length = 56 := by
      rw [← hB]; simp only [List.length_append, List.length_singleton, List.length_replicate]; omega
    generalize hD : (t ++ [128] ++ b).drop (m.length % 64 + 1 + (List.replicate (64 - (m.length % 64 + 1) - 8) (0 : UInt8)).length) = D
    have hDl : D.length = 8 := by rw [← hD, List.length_drop, hfull, List.length_replicate]; omega
    rw [poke_eq _ _ _ (by rw [hL8, List.length_append]; omega), Option.bind_some, hL8, hL]
    have hB2 : (B ++ D).take 56 ++ leBytes 8 (8 * m.length) ++ (B ++ D).drop (56 + 8) = B ++ leBytes 8 (8 * m.length) := by
      rw [← hBl, List.take_left, List.drop_eq_nil_of_le, List.append_nil]
      rw [List.length_append]; omega
    rw [hB2]
    obtain ⟨r2, e2, w2⟩ := body_eq 1 c.regs (B ++ leBytes 8 (8 * m.length)) (by
      rw [List.length_append, leBytes_length]; omega)
    rw [e2, Option.bind_some]
    congr 1
    symm
    apply key 1 r2
    · rw [List.length_append, hPl]; omega
    · rw [w2, ← hB, hP', hzv]
      have : 64 - (m.length % 64 + 1) - 8 = 55 - m.length % 64 := by omega
      rw [this]
      simp only [List.append_assoc]

theorem md5_length (m : Bytes) : (md5 m).length = 16 := by
  simp [md5, leBytes_length]

end Bm.Md5
