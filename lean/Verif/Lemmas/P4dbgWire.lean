import Verif.Model.P4dbg

/-!
# Messages between the tool and the debugger
-/

namespace Bm.P4dbg

open Bm.Debugger.Spec (Pid Pkt Req Msg Vis)
open Bm.P4dbg.Spec

@[simp] theorem le_length (k : Nat) : ∀ v, (le k v).length = k := by
  induction k with
  | zero => intro v; rfl
  | succ k ih => intro v; simp [le, ih]

theorem unle_le (k : Nat) : ∀ v, v < 256 ^ k → unle (le k v) = v := by
  induction k with
  | zero => intro v hv; simp [le, unle] at *; omega
  | succ k ih =>
    intro v hv
    simp only [le, unle]
    rw [ih (v / 256) (by rw [Nat.pow_succ] at hv; exact Nat.div_lt_of_lt_mul (by omega))]
    have : (UInt8.ofNat v).toNat = v % 256 := by simp
    omega

theorem rd_here {k : Nat} {x y : Bytes} (h : x.length = k) : rd k 0 (x ++ y) = some (unle x) := by
  subst h; simp [rd]

theorem rd_end {k : Nat} {x : Bytes} (h : x.length = k) : rd k 0 x = some (unle x) := by
  subst h; simp [rd]

theorem rd_skip {k off : Nat} {x y : Bytes} (h : x.length ≤ off) : rd k off (x ++ y) = rd k (off - x.length) y := by
  simp only [rd, List.length_append]
  rw [List.drop_append, List.drop_eq_nil_of_le h, List.nil_append]
  by_cases hc : off + k ≤ x.length + y.length
  · rw [if_pos hc, if_pos (by omega)]
  · rw [if_neg hc, if_neg (by omega)]

theorem packQs_eq : ∀ {l : List Int}, (∀ v ∈ l, 0 ≤ v ∧ v < 2 ^ 64) →
    packQs l = some (l.flatMap fun v => le 8 v.toNat) := by
  intro l
  induction l with
  | nil => intro _; rfl
  | cons v l ih =>
    intro h
    have hv := h v List.mem_cons_self
    have hv' : 0 ≤ v ∧ v.toNat < 2 ^ 64 := by omega
    simp only [packQs, packQ, if_pos hv', ih fun w hw => h w (List.mem_cons_of_mem _ hw), List.flatMap_cons]

theorem generate_eq {n ty : Nat} {ps : List Int} (hn : n < 2 ^ 64) (hp : ∀ v ∈ ps, 0 ≤ v ∧ v < 2 ^ 64) :
    generate n ty ps = some (le 4 ty ++ (le 8 0 ++ (le 8 n ++ ps.flatMap fun v => le 8 v.toNat))) := by
  have h1 : ∀ v ∈ (n : Int) :: ps, 0 ≤ v ∧ v < 2 ^ 64 :=
    List.forall_mem_cons.mpr ⟨by omega, hp⟩
  unfold generate
  rw [packQs_eq h1]
  simp only [List.flatMap_cons, Int.toNat_natCast, Option.map_some]

/-- The members of a request. -/
theorem decode_le {n ty : Nat} {r : Bytes} (hn : n < 2 ^ 64) (ht : ty < 2 ^ 31) :
    rd 4 0 (le 4 ty ++ (le 8 0 ++ (le 8 n ++ r))) = some ty ∧
    rd 8 12 (le 4 ty ++ (le 8 0 ++ (le 8 n ++ r))) = some n ∧
    ∀ k i, rd k (20 + i) (le 4 ty ++ (le 8 0 ++ (le 8 n ++ r))) = rd k i r := by
  refine ⟨?_, ?_, ?_⟩
  · rw [rd_here (le_length 4 ty), unle_le 4 ty (by omega)]
  · rw [rd_skip (by simp), rd_skip (by simp)]
    simp only [le_length]
    rw [rd_here (le_length 8 n), unle_le 8 n (by omega)]
  · intro k i
    rw [rd_skip (by simp; omega), rd_skip (by simp; omega), rd_skip (by simp; omega)]
    simp only [le_length]
    congr 1
    omega

theorem rd8 {v : Nat} {r : Bytes} (h : v < 2 ^ 64) : rd 8 0 (le 8 v ++ r) = some v := by
  rw [rd_here (le_length 8 v), unle_le 8 v (by omega)]

theorem rd4 {v : Nat} {r : Bytes} (h : v < 2 ^ 32) : rd 4 0 (le 4 v ++ r) = some v := by
  rw [rd_here (le_length 4 v), unle_le 4 v (by omega)]

theorem rd_step {k i n v : Nat} {r : Bytes} : rd k (n + i) (le n v ++ r) = rd k i r := by
  rw [rd_skip (by simp)]; simp

/-- What a message without further members is read as. -/
def plain : Nat → Option Req
  | 3 => some .cont
  | 4 => some .next
  | 8 => some .breakIn
  | 9 => some .removeIn
  | 10 => some .stopIn
  | 11 => some .resumeIn
  | 16 => some .reset
  | 18 => some .attach
  | 19 => some .detach
  | _ => none

theorem decode_plain {n ty : Nat} {r : Req} (hn : n < 2 ^ 64) (h : plain ty = some r) :
    ∃ b, generate n ty [] = some b ∧ decode b = some (n, r) := by
  have ht : ty < 2 ^ 31 := by
    unfold plain at h
    split at h <;> first | omega | cases h
  refine ⟨_, generate_eq hn (by simp), ?_⟩
  obtain ⟨h1, h2, -⟩ := decode_le (r := ([] : List Int).flatMap fun v => le 8 v.toNat) hn ht
  unfold decode
  rw [h1, h2]
  unfold plain at h
  split at h <;> first | (cases h; done) | (cases h; simp)

theorem decode_watch {n id : Nat} (hn : n < 2 ^ 64) (hi : id < 2 ^ 64) :
    (∃ b, generate n 13 [(id : Int)] = some b ∧ decode b = some (n, .watch id)) ∧
    (∃ b, generate n 14 [(id : Int)] = some b ∧ decode b = some (n, .unwatch id)) := by
  have hp : ∀ v ∈ [(id : Int)], 0 ≤ v ∧ v < 2 ^ 64 := by simp; omega
  constructor
  · refine ⟨_, generate_eq hn hp, ?_⟩
    obtain ⟨h1, h2, h3⟩ := decode_le (ty := 13) (r := [(id : Int)].flatMap fun v => le 8 v.toNat) hn (by omega)
    have e := h3 8 0
    simp only [List.flatMap_cons, List.flatMap_nil, Int.toNat_natCast] at e h1 h2 ⊢
    rw [rd8 hi] at e
    unfold decode
    rw [h1, h2]
    simp only [Nat.add_zero] at e
    simp [-List.append_nil, e]
  · refine ⟨_, generate_eq hn hp, ?_⟩
    obtain ⟨h1, h2, h3⟩ := decode_le (ty := 14) (r := [(id : Int)].flatMap fun v => le 8 v.toNat) hn (by omega)
    have e := h3 8 0
    simp only [List.flatMap_cons, List.flatMap_nil, Int.toNat_natCast] at e h1 h2 ⊢
    rw [rd8 hi] at e
    unfold decode
    rw [h1, h2]
    simp only [Nat.add_zero] at e
    simp [-List.append_nil, e]

theorem decode_value {n id : Nat} {p c : Int} (hn : n < 2 ^ 64) (hi : id < 2 ^ 64) (hp : 0 ≤ p ∧ p < 2 ^ 64)
    (hc : 0 ≤ c ∧ c < 2 ^ 64) :
    ∃ b, generate n 5 [p, c, (id : Int)] = some b ∧ decode b = some (n, .getValue (p.toNat, c.toNat) id) := by
  have hq : ∀ v ∈ [p, c, (id : Int)], 0 ≤ v ∧ v < 2 ^ 64 := by simp; omega
  refine ⟨_, generate_eq hn hq, ?_⟩
  obtain ⟨h1, h2, h3⟩ := decode_le (ty := 5) (r := [p, c, (id : Int)].flatMap fun v => le 8 v.toNat) hn (by omega)
  have e0 := h3 8 0
  have e1 := h3 8 (8 + 0)
  have e2 := h3 8 (8 + (8 + 0))
  simp only [List.flatMap_cons, List.flatMap_nil, Int.toNat_natCast] at e0 e1 e2 h1 h2 ⊢
  rw [rd8 (by omega)] at e0
  rw [rd_step, rd8 (by omega)] at e1
  rw [rd_step, rd_step, rd8 (by omega)] at e2
  unfold decode
  rw [h1, h2]
  simp only [Nat.add_zero, Nat.reduceAdd] at e0 e1 e2
  simp [-List.append_nil, e0, e1, e2]

theorem decode_backtrace {n : Nat} {p c : Int} (hn : n < 2 ^ 64) (hp : 0 ≤ p ∧ p < 2 ^ 64) (hc : 0 ≤ c ∧ c < 2 ^ 64) :
    ∃ b, generate n 6 [p, c] = some b ∧ decode b = some (n, .getBacktrace (p.toNat, c.toNat)) := by
  have hq : ∀ v ∈ [p, c], 0 ≤ v ∧ v < 2 ^ 64 := by simp; omega
  refine ⟨_, generate_eq hn hq, ?_⟩
  obtain ⟨h1, h2, h3⟩ := decode_le (ty := 6) (r := [p, c].flatMap fun v => le 8 v.toNat) hn (by omega)
  have e0 := h3 8 0
  have e1 := h3 8 (8 + 0)
  simp only [List.flatMap_cons, List.flatMap_nil] at e0 e1 h1 h2 ⊢
  rw [rd8 (by omega)] at e0
  rw [rd_step, rd8 (by omega)] at e1
  unfold decode
  rw [h1, h2]
  simp only [Nat.add_zero, Nat.reduceAdd] at e0 e1
  simp [-List.append_nil, e0, e1]

/-! ## Replies -/

/-- The numbers of a message fit. -/
def FitsMsg : Msg → Prop
  | .packetIn p port => p.1 < 2 ^ 64 ∧ p.2 < 2 ^ 64 ∧ -2 ^ 31 ≤ port ∧ port < 2 ^ 31
  | .field p id b => p.1 < 2 ^ 64 ∧ p.2 < 2 ^ 64 ∧ id < 2 ^ 64 ∧ b.length < 2 ^ 31
  | .backtrace p l => p.1 < 2 ^ 64 ∧ p.2 < 2 ^ 64 ∧ l.length < 2 ^ 29 ∧ ∀ v ∈ l, v < 2 ^ 32
  | .status c => c < 2 ^ 31
  | .keepAlive => True

theorem flat_length (l : List Nat) : (l.flatMap (le 4)).length = 4 * l.length := by
  induction l with
  | nil => rfl
  | cons a l ih => simp only [List.flatMap_cons, List.length_append, le_length, ih, List.length_cons]; omega

theorem unpack_le : ∀ (l : List Nat), (∀ v ∈ l, v < 2 ^ 32) → unpack l.length (l.flatMap (le 4)) = l := by
  intro l
  induction l with
  | nil => intro _; rfl
  | cons a l ih =>
    intro h
    simp only [List.length_cons, unpack, List.flatMap_cons]
    rw [List.take_left' (le_length 4 a), List.drop_left' (le_length 4 a), ih fun v hv => h v (List.mem_cons_of_mem _ hv),
      unle_le 4 a (by have := h a List.mem_cons_self; omega)]

theorem rd_next {k n v : Nat} {r : Bytes} {i : Nat} (h : n ≤ i) : rd k i (le n v ++ r) = rd k (i - n) r := by
  rw [rd_skip (by simpa using h)]; simp

theorem signed_mod {v : Int} (h1 : -2 ^ 31 ≤ v) (h2 : v < 2 ^ 31) : signed (v % 2 ^ 32).toNat = v := by
  unfold signed
  split <;> omega

theorem rd8_end {v : Nat} (h : v < 2 ^ 64) : rd 8 0 (le 8 v) = some v := by
  rw [rd_end (le_length 8 v), unle_le 8 v (by omega)]

theorem rd4_end {v : Nat} (h : v < 2 ^ 32) : rd 4 0 (le 4 v) = some v := by
  rw [rd_end (le_length 4 v), unle_le 4 v (by omega)]

/-- Every message is read as it was sent. -/
theorem extract_encode {n : Nat} {m : Msg} (hn : n < 2 ^ 64) (hm : FitsMsg m) : extract (encode n m) = some (n, m) := by
  cases m with
  | packetIn p port =>
    obtain ⟨h1, h2, h3, h4⟩ := hm
    simp only [encode, head, List.append_assoc]
    unfold extract
    simp (disch := omega) only [rd4, rd8, rd_next, Nat.reduceSub, rd8_end, rd4_end]
    rw [signed_mod h3 h4]
    simp
  | field p id b =>
    obtain ⟨h1, h2, h3, h4⟩ := hm
    have hl : (encode n (.field p id b)).length = 48 + b.length := by simp [encode, head]; omega
    have hd : (encode n (.field p id b)).drop 48 = b := by
      simp only [encode]
      exact List.drop_left' (by simp [head])
    have hx := hl
    have hy := hd
    simp only [encode, head, List.append_assoc] at hx hy ⊢
    unfold extract
    simp (disch := omega) only [rd4, rd8, rd_next, Nat.reduceSub, rd8_end, rd4_end]
    rw [hx, hy]
    simp
  | backtrace p l =>
    obtain ⟨h1, h2, h3, h4⟩ := hm
    have hl : (encode n (.backtrace p l)).length = 40 + 4 * l.length := by
      simp [encode, head, flat_length]; omega
    have hd : (encode n (.backtrace p l)).drop 40 = l.flatMap (le 4) := by
      simp only [encode]
      exact List.drop_left' (by simp [head])
    have hx := hl
    have hy := hd
    simp only [encode, head, List.append_assoc] at hx hy ⊢
    unfold extract
    simp (disch := omega) only [rd4, rd8, rd_next, Nat.reduceSub, rd8_end, rd4_end]
    rw [hx, hy, ← flat_length, List.take_length, unpack_le l h4]
    simp
  | status c =>
    have hc : c < 2 ^ 31 := hm
    simp only [encode, head, List.append_assoc]
    unfold extract
    simp (disch := omega) only [rd4, rd8, rd_next, Nat.reduceSub, rd8_end, rd4_end]
    simp
  | keepAlive =>
    simp only [encode, head, List.append_assoc]
    unfold extract
    simp (disch := omega) only [rd4, rd8, rd_next, Nat.reduceSub, rd8_end, rd4_end]
    simp

end Bm.P4dbg
