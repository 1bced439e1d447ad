import Verif.Spec.SsMgmt
import Verif.Props.Queueing

/-!
# Lemmas about mirroring sessions and queue settings
-/

namespace Bm.SsMgmt

open Bm.SsMgmt.Spec Bm.Spec.Queueing
open Bm.SSwitch (Session addSession deleteSession getSession)

variable {T : Type}

/-- The switch is as the users think it is. -/
structure Inv (F : Queueing.Fixed) (n : Nat) (s : Sw T) (st : St T) : Prop where
  sess : ∀ id, s.sess id = (st.sess id).map fun x => ⟨x.1, x.2⟩
  range : ∀ id, st.sess id ≠ none → 0 ≤ id ∧ id < 32768
  rep : Queueing.Rep F n s.q st.lines

theorem rep_mono {F : Queueing.Fixed} {n : Nat} {q : Queueing.State T} {S : Lines T} (h : Queueing.Rep F n q S) :
    Queueing.Rep F (n + 1) q S :=
  { h with cnt := fun w => Nat.le_succ_of_le (h.cnt w) }

variable {F : Queueing.Fixed} {n : Nat} {s : Sw T} {st : St T}

theorem Inv.next (h : Inv F n s st) : Inv F (n + 1) s st := ⟨h.sess, h.range, rep_mono h.rep⟩

theorem add_ok (h : Inv F n s st) (t : Int) (id : Int) (p g : Option Nat) :
    Inv F (n + 1) { s with sess := (addSession s.sess id ⟨p, g⟩).2 } (want F.nbPri F.ticks t st (.add id p g)).1 ∧
    (want F.nbPri F.ticks t st (.add id p g)).2 = if (addSession s.sess id ⟨p, g⟩).1 then .ok else .refused := by
  have h15 : (2 : Int) ^ 15 - 1 = 32767 := by decide
  by_cases hid : 0 ≤ id ∧ id < 32768
  · have hid' : 0 ≤ id ∧ id ≤ (2 : Int) ^ 15 - 1 := by rw [h15]; omega
    rw [addSession, if_pos hid', want, if_pos hid]
    refine ⟨⟨fun i => ?_, fun i hi => ?_, rep_mono h.rep⟩, rfl⟩
    · by_cases e : i = id
      · simp only [if_pos e]; rfl
      · simp only [if_neg e]; exact h.sess i
    · by_cases e : i = id
      · exact e ▸ hid
      · simp only [if_neg e] at hi; exact h.range i hi
  · have hid' : ¬(0 ≤ id ∧ id ≤ (2 : Int) ^ 15 - 1) := by rw [h15]; omega
    rw [addSession, if_neg hid', want, if_neg hid]
    exact ⟨h.next, rfl⟩

theorem del_ok (h : Inv F n s st) (t : Int) (id : Int) :
    Inv F (n + 1) { s with sess := (deleteSession s.sess id).2 } (want F.nbPri F.ticks t st (.del id)).1 ∧
    (want F.nbPri F.ticks t st (.del id)).2 = if (deleteSession s.sess id).1 then .ok else .refused := by
  have h15 : (2 : Int) ^ 15 - 1 = 32767 := by decide
  have hs : (s.sess id).isSome = (st.sess id).isSome := by rw [h.sess, Option.isSome_map]
  by_cases hid : 0 ≤ id ∧ id < 32768
  · have hid' : 0 ≤ id ∧ id ≤ (2 : Int) ^ 15 - 1 := by rw [h15]; omega
    rw [deleteSession, if_pos hid', want, hs]
    by_cases hx : (st.sess id).isSome = true
    · rw [if_pos hx]
      refine ⟨⟨fun i => ?_, fun i hi => ?_, rep_mono h.rep⟩, by simp only [hx, if_true]⟩
      · by_cases e : i = id
        · simp only [if_pos e]; rfl
        · simp only [if_neg e]; exact h.sess i
      · by_cases e : i = id
        · exact e ▸ hid
        · simp only [if_neg e] at hi; exact h.range i hi
    · rw [if_neg hx]
      refine ⟨⟨fun i => ?_, h.range, rep_mono h.rep⟩, by simp only [if_neg hx]⟩
      by_cases e : i = id
      · simp only [if_pos e]
        rw [Bool.not_eq_true, Option.isSome_eq_false_iff, Option.isNone_iff_eq_none] at hx
        rw [e, hx]; rfl
      · simp only [if_neg e]; exact h.sess i
  · have hid' : ¬(0 ≤ id ∧ id ≤ (2 : Int) ^ 15 - 1) := by rw [h15]; omega
    have hx : st.sess id = none := by
      by_contra hne
      exact hid (h.range id hne)
    rw [deleteSession, if_neg hid', want, hx]
    exact ⟨h.next, rfl⟩

theorem setQ_ok (h : Inv F n s st) (hn : n + 1 < 2 ^ 64) (hpri : F.nbPri ≤ 32) (op : Queueing.Op T) :
    ∃ s' r, s.setQ F op = some (s', match r with | .throws => .exception | _ => .int 0) ∧
      Queueing.Ok F st.lines op r ∧ Inv F (n + 1) s' { st with lines := Queueing.effect F st.lines op r } := by
  obtain ⟨r, q, he, hok, hrep⟩ := h.rep.exec hn hpri op
  exact ⟨{ s with q := q }, r, by rw [Sw.setQ, he]; rfl, hok, ⟨h.sess, h.range, hrep⟩⟩

theorem nat_size {x : BitVec 32} {k : Nat} (h : nat? x = some k) : toSize x = k := by
  rw [nat?] at h
  split at h
  · rename_i h0
    have hk : x.toNat = k := Option.some.inj h
    rw [toSize, ← hk]
    have : x.msb = false := by
      rw [BitVec.msb_eq_toInt]
      simpa using h0
    rw [BitVec.signExtend_eq_setWidth_of_msb_false this, BitVec.toNat_setWidth]
    exact Nat.mod_eq_of_lt (Nat.lt_trans x.isLt (by decide))
  · exact absurd h (by simp)

theorem nat_toNat {w : Nat} {x : BitVec w} {k : Nat} (h : nat? x = some k) : x.toNat = k := by
  rw [nat?] at h
  split at h
  · exact Option.some.inj h
  · exact absurd h (by simp)

theorem upd2_eq {α : Type} (f : Nat → Nat → α) (q p : Nat) (v : α) :
    upd2 f q p v = fun q' i => if (Where.line q p).Has q' i then v else f q' i := by
  funext q' i
  by_cases hq : q' = q
  · subst hq
    by_cases hi : i = p
    · subst hi; simp [upd2, Where.Has]
    · simp [upd2, Where.Has, hi]
  · simp [upd2, Where.Has, hq]

theorem upd_eq {α : Type} (f : Nat → Nat → α) (q : Nat) (v : α) :
    Function.update f q (fun _ => v) = fun q' i => if (Where.port q).Has q' i then v else f q' i := by
  funext q' i
  by_cases hq : q' = q
  · subst hq; simp [Where.Has]
  · simp [Where.Has, hq]

theorem get_ok (h : Inv F n s st) (id : Int) : getSession s.sess id = (st.sess id).map fun x => ⟨x.1, x.2⟩ := h.sess id

/-- Every request over Thrift which has a meaning does what it should. -/
theorem rpc_ok (h : Inv F n s st) (hn : n + 1 < 2 ^ 64) (hpri : F.nbPri ≤ 32) (t : Int) (r : Rpc) {w : Want}
    (hw : r.want = some w) : ∃ s' a, s.rpc F t r = some (s', a) ∧ Inv F (n + 1) s' (want F.nbPri F.ticks t st w).1 ∧
      Answers r (want F.nbPri F.ticks t st w).2 a := by
  cases r with
  | mapAdd id port =>
    cases Option.some.inj hw
    obtain ⟨h1, h2⟩ := add_ok h t id.toInt (some port.toNat) none
    refine ⟨_, .int (ofBool (addSession s.sess id.toInt ⟨some port.toNat, none⟩).1), rfl, h1, ?_⟩
    simp only [Answers, h2, ofBool]
    cases (addSession s.sess id.toInt ⟨some port.toNat, none⟩).1 <;> rfl
  | mapDel id =>
    cases Option.some.inj hw
    obtain ⟨h1, h2⟩ := del_ok h t id.toInt
    refine ⟨_, .int (ofBool (deleteSession s.sess id.toInt).1), rfl, h1, ?_⟩
    simp only [Answers, h2, ofBool]
    cases (deleteSession s.sess id.toInt).1 <;> rfl
  | mapGet id =>
    cases Option.some.inj hw
    have hg := get_ok h id.toInt
    cases hx : st.sess id.toInt with
    | none =>
      rw [hx] at hg
      refine ⟨s, .int (-1), by simp only [Sw.rpc, hg, Option.map_none], h.next, Or.inr ⟨?_, rfl⟩⟩
      rw [want, hx]; rfl
    | some x =>
      obtain ⟨p, g⟩ := x
      rw [hx] at hg
      cases p with
      | none =>
        refine ⟨s, .int (-1), by simp only [Sw.rpc, hg, Option.map_some], h.next, Or.inr ⟨?_, rfl⟩⟩
        rw [want, hx]; rfl
      | some p =>
        refine ⟨s, .int (BitVec.ofNat 32 p), by simp only [Sw.rpc, hg, Option.map_some], h.next, Or.inl ⟨p, ?_, rfl⟩⟩
        rw [want, hx]; rfl
  | sessAdd id port group =>
    cases Option.some.inj hw
    obtain ⟨h1, -⟩ := add_ok h t id.toInt (port.map BitVec.toNat) (group.map BitVec.toNat)
    exact ⟨_, _, rfl, h1, fun _ => rfl⟩
  | sessDel id =>
    cases Option.some.inj hw
    obtain ⟨h1, h2⟩ := del_ok h t id.toInt
    refine ⟨_, if (deleteSession s.sess id.toInt).1 then .void else .notFound, rfl, h1, ?_⟩
    simp only [Answers, h2]
    cases (deleteSession s.sess id.toInt).1
    · exact Or.inr ⟨rfl, rfl⟩
    · exact Or.inl ⟨rfl, rfl⟩
  | sessGet id =>
    cases Option.some.inj hw
    have hg := get_ok h id.toInt
    cases hx : st.sess id.toInt with
    | none =>
      rw [hx] at hg
      refine ⟨s, .notFound, by simp only [Sw.rpc, hg, Option.map_none], ?_, Or.inr ⟨?_, rfl⟩⟩
      · simp only [want, hx]; exact h.next
      · simp only [want, hx]
    | some x =>
      obtain ⟨p, g⟩ := x
      rw [hx] at hg
      refine ⟨s, .config (p.map (BitVec.ofNat 32)) (g.map (BitVec.ofNat 32)), by simp only [Sw.rpc, hg, Option.map_some], ?_,
        Or.inl ⟨p, g, ?_, rfl⟩⟩
      · simp only [want, hx]; exact h.next
      · simp only [want, hx]
  | depthPri p i d =>
    cases hp : nat? p with
    | none => rw [Rpc.want, hp] at hw; exact absurd hw (by simp)
    | some p' =>
    cases hi : nat? i with
    | none => rw [Rpc.want, hp, hi] at hw; exact absurd hw (by simp)
    | some i' =>
    cases hd : nat? d with
    | none => rw [Rpc.want, hp, hi, hd] at hw; exact absurd hw (by simp)
    | some d' =>
    rw [Rpc.want, hp, hi, hd] at hw
    cases Option.some.inj hw
    obtain ⟨s', r, h1, h2, h3⟩ := setQ_ok h hn hpri (.setCapPri (toSize p) (toSize i) d.toNat t)
    rw [nat_size hp, nat_size hi, nat_toNat hd] at h1 h2 h3
    refine ⟨s', _, by rw [Sw.rpc, nat_size hp, nat_size hi, nat_toNat hd]; exact h1, ?_⟩
    simp only [Queueing.Ok] at h2
    by_cases hk : i' < F.nbPri
    · rw [if_pos hk] at h2
      subst h2
      rw [want, if_pos (show (Where.line p' i').Known F.nbPri from hk)]
      refine ⟨?_, Or.inl ⟨rfl, rfl⟩⟩
      simp only [Queueing.effect, upd2_eq] at h3
      exact h3
    · rw [if_neg hk] at h2
      subst h2
      rw [want, if_neg (show ¬(Where.line p' i').Known F.nbPri from hk)]
      exact ⟨h3, Or.inr ⟨rfl, rfl⟩⟩
  | depth p d =>
    cases hp : nat? p with
    | none => rw [Rpc.want, hp] at hw; exact absurd hw (by simp)
    | some p' =>
    cases hd : nat? d with
    | none => rw [Rpc.want, hp, hd] at hw; exact absurd hw (by simp)
    | some d' =>
    rw [Rpc.want, hp, hd] at hw
    cases Option.some.inj hw
    obtain ⟨s', r, h1, h2, h3⟩ := setQ_ok h hn hpri (.setCap (toSize p) d.toNat t)
    rw [nat_size hp, nat_toNat hd] at h1 h2 h3
    simp only [Queueing.Ok] at h2
    subst h2
    refine ⟨s', _, by rw [Sw.rpc, nat_size hp, nat_toNat hd]; exact h1, ?_⟩
    rw [want, if_pos (show (Where.port p').Known F.nbPri from trivial)]
    refine ⟨?_, Or.inl ⟨rfl, rfl⟩⟩
    simp only [Queueing.effect, upd_eq] at h3
    exact h3
  | depthAll d =>
    cases hd : nat? d with
    | none => rw [Rpc.want, hd] at hw; exact absurd hw (by simp)
    | some d' =>
    rw [Rpc.want, hd] at hw
    cases Option.some.inj hw
    obtain ⟨s', r, h1, h2, h3⟩ := setQ_ok h hn hpri (.setCapAll d.toNat)
    rw [nat_toNat hd] at h1 h2 h3
    simp only [Queueing.Ok] at h2
    subst h2
    refine ⟨s', _, by rw [Sw.rpc, nat_toNat hd]; exact h1, ?_⟩
    rw [want, if_pos (show Where.all.Known F.nbPri from trivial)]
    refine ⟨?_, Or.inl ⟨rfl, rfl⟩⟩
    simp only [Where.Has, if_true]
    exact h3
  | ratePri p i d =>
    cases hp : nat? p with
    | none => rw [Rpc.want, hp] at hw; exact absurd hw (by simp)
    | some p' =>
    cases hi : nat? i with
    | none => rw [Rpc.want, hp, hi] at hw; exact absurd hw (by simp)
    | some i' =>
    cases hd : nat? d with
    | none => rw [Rpc.want, hp, hi, hd] at hw; exact absurd hw (by simp)
    | some d' =>
    rw [Rpc.want, hp, hi, hd] at hw
    cases Option.some.inj hw
    obtain ⟨s', r, h1, h2, h3⟩ := setQ_ok h hn hpri (.setRatePri (toSize p) (toSize i) d.toNat t)
    rw [nat_size hp, nat_size hi, nat_toNat hd] at h1 h2 h3
    refine ⟨s', _, by rw [Sw.rpc, nat_size hp, nat_size hi, nat_toNat hd]; exact h1, ?_⟩
    simp only [Queueing.Ok] at h2
    by_cases hk : i' < F.nbPri
    · rw [if_pos hk] at h2
      subst h2
      rw [want, if_pos (show (Where.line p' i').Known F.nbPri from hk)]
      refine ⟨?_, Or.inl ⟨rfl, rfl⟩⟩
      simp only [Queueing.effect, upd2_eq] at h3
      exact h3
    · rw [if_neg hk] at h2
      subst h2
      rw [want, if_neg (show ¬(Where.line p' i').Known F.nbPri from hk)]
      exact ⟨h3, Or.inr ⟨rfl, rfl⟩⟩
  | rate p d =>
    cases hp : nat? p with
    | none => rw [Rpc.want, hp] at hw; exact absurd hw (by simp)
    | some p' =>
    cases hd : nat? d with
    | none => rw [Rpc.want, hp, hd] at hw; exact absurd hw (by simp)
    | some d' =>
    rw [Rpc.want, hp, hd] at hw
    cases Option.some.inj hw
    obtain ⟨s', r, h1, h2, h3⟩ := setQ_ok h hn hpri (.setRate (toSize p) d.toNat t)
    rw [nat_size hp, nat_toNat hd] at h1 h2 h3
    simp only [Queueing.Ok] at h2
    subst h2
    refine ⟨s', _, by rw [Sw.rpc, nat_size hp, nat_toNat hd]; exact h1, ?_⟩
    rw [want, if_pos (show (Where.port p').Known F.nbPri from trivial)]
    refine ⟨?_, Or.inl ⟨rfl, rfl⟩⟩
    simp only [Queueing.effect, upd_eq] at h3
    exact h3
  | rateAll d =>
    cases hd : nat? d with
    | none => rw [Rpc.want, hd] at hw; exact absurd hw (by simp)
    | some d' =>
    rw [Rpc.want, hd] at hw
    cases Option.some.inj hw
    obtain ⟨s', r, h1, h2, h3⟩ := setQ_ok h hn hpri (.setRateAll d.toNat)
    rw [nat_toNat hd] at h1 h2 h3
    simp only [Queueing.Ok] at h2
    subst h2
    refine ⟨s', _, by rw [Sw.rpc, nat_toNat hd]; exact h1, ?_⟩
    rw [want, if_pos (show Where.all.Known F.nbPri from trivial)]
    refine ⟨?_, Or.inl ⟨rfl, rfl⟩⟩
    simp only [Where.Has, if_true]
    exact h3

/-! ## The tool -/

theorem pack_nat {w : Nat} (hw : 1 ≤ w) {x : Int} (h : inR 0 (2 ^ (w - 1)) x = true) :
    ∃ b : BitVec w, pack w x = .ok b ∧ nat? b = some x.toNat ∧ b.toNat = x.toNat ∧ b.toInt = x := by
  simp only [inR, Bool.and_eq_true, decide_eq_true_eq] at h
  have hp : (0 : Int) < 2 ^ (w - 1) := Int.pow_pos (by decide)
  have hb : (BitVec.ofInt w x).toInt = x := by
    apply BitVec.toInt_ofInt_eq_self (by omega) (by omega) h.2
  have hn : (BitVec.ofInt w x).toNat = x.toNat := by
    have h2 : (2 : Int) ^ w = 2 * 2 ^ (w - 1) := by
      obtain ⟨k, rfl⟩ : ∃ k, w = k + 1 := ⟨w - 1, by omega⟩
      rw [Nat.add_sub_cancel, Int.pow_succ]; omega
    rw [BitVec.toNat_ofInt]
    congr 1
    apply Int.emod_eq_of_lt h.1
    have : ((2 ^ w : Nat) : Int) = 2 ^ w := by simp
    rw [this, h2]
    omega
  refine ⟨BitVec.ofInt w x, ?_, ?_, hn, hb⟩
  · rw [pack, if_pos ⟨by omega, h.2⟩]
  · rw [nat?, hb, if_pos h.1, hn]

theorem pack_int {x : Int} (h : inR (-(2 ^ 31)) (2 ^ 31) x = true) :
    ∃ b : BitVec 32, pack 32 x = .ok b ∧ b.toInt = x := by
  simp only [inR, Bool.and_eq_true, decide_eq_true_eq] at h
  refine ⟨BitVec.ofInt 32 x, ?_, BitVec.toInt_ofInt_eq_self (by decide) h.1 h.2⟩
  rw [pack, if_pos h]

/-- Lines with a meaning become the request which means it. -/
theorem read_nums (c : Cmd) (l : List Int) {w : Want} (h : nums c l = .wants w) :
    ∃ r, c.read (l.map some) = .ok r ∧ r.want = some w ∧
      ((∃ id p g, r = .sessAdd id p g) ∨ (∃ id, r = .sessDel id ∧ w = .del id.toInt) ∨ (∃ id, r = .sessGet id ∧ w = .get id.toInt) ∨
        ∃ x k, w = .depth x k ∨ w = .rate x k) := by
  cases c with
  | depth =>
    match l, h with
    | [n], h =>
      rw [nums] at h
      split at h
      · rename_i hn
        cases h
        obtain ⟨b, h1, h2, -⟩ := pack_nat (w := 32) (by decide) hn
        exact ⟨.depthAll b, by simp only [List.map, Cmd.read, parseInt, h1, bind, Except.bind, pure, Except.pure], by rw [Rpc.want, h2]; rfl,
          Or.inr (Or.inr (Or.inr ⟨_, _, Or.inl rfl⟩))⟩
      · exact absurd h (by simp)
    | [n, p], h =>
      rw [nums] at h
      split at h
      · rename_i hn
        rw [Bool.and_eq_true] at hn
        cases h
        obtain ⟨b, h1, h2, -⟩ := pack_nat (w := 32) (by decide) hn.1
        obtain ⟨b', h1', h2', -⟩ := pack_nat (w := 32) (by decide) hn.2
        exact ⟨.depth b' b, by simp only [List.map, Cmd.read, parseInt, h1, h1', bind, Except.bind, pure, Except.pure],
          by rw [Rpc.want, h2, h2']; rfl, Or.inr (Or.inr (Or.inr ⟨_, _, Or.inl rfl⟩))⟩
      · exact absurd h (by simp)
    | [n, p, i], h =>
      rw [nums] at h
      split at h
      · rename_i hn
        rw [Bool.and_eq_true, Bool.and_eq_true] at hn
        cases h
        obtain ⟨b, h1, h2, -⟩ := pack_nat (w := 32) (by decide) hn.1.1
        obtain ⟨b', h1', h2', -⟩ := pack_nat (w := 32) (by decide) hn.1.2
        obtain ⟨b'', h1'', h2'', -⟩ := pack_nat (w := 32) (by decide) hn.2
        exact ⟨.depthPri b' b'' b, by simp only [List.map, Cmd.read, parseInt, h1, h1', h1'', bind, Except.bind, pure, Except.pure],
          by rw [Rpc.want, h2, h2', h2'']; rfl, Or.inr (Or.inr (Or.inr ⟨_, _, Or.inl rfl⟩))⟩
      · exact absurd h (by simp)
  | rate =>
    match l, h with
    | [n], h =>
      rw [nums] at h
      split at h
      · rename_i hn
        cases h
        obtain ⟨b, h1, h2, -⟩ := pack_nat (w := 64) (by decide) hn
        exact ⟨.rateAll b, by simp only [List.map, Cmd.read, parseInt, h1, bind, Except.bind, pure, Except.pure], by rw [Rpc.want, h2]; rfl,
          Or.inr (Or.inr (Or.inr ⟨_, _, Or.inr rfl⟩))⟩
      · exact absurd h (by simp)
    | [n, p], h =>
      rw [nums] at h
      split at h
      · rename_i hn
        rw [Bool.and_eq_true] at hn
        cases h
        obtain ⟨b, h1, h2, -⟩ := pack_nat (w := 64) (by decide) hn.1
        obtain ⟨b', h1', h2', -⟩ := pack_nat (w := 32) (by decide) hn.2
        exact ⟨.rate b' b, by simp only [List.map, Cmd.read, parseInt, h1, h1', bind, Except.bind, pure, Except.pure],
          by rw [Rpc.want, h2, h2']; rfl, Or.inr (Or.inr (Or.inr ⟨_, _, Or.inr rfl⟩))⟩
      · exact absurd h (by simp)
    | [n, p, i], h =>
      rw [nums] at h
      split at h
      · rename_i hn
        rw [Bool.and_eq_true, Bool.and_eq_true] at hn
        cases h
        obtain ⟨b, h1, h2, -⟩ := pack_nat (w := 64) (by decide) hn.1.1
        obtain ⟨b', h1', h2', -⟩ := pack_nat (w := 32) (by decide) hn.1.2
        obtain ⟨b'', h1'', h2'', -⟩ := pack_nat (w := 32) (by decide) hn.2
        exact ⟨.ratePri b' b'' b, by simp only [List.map, Cmd.read, parseInt, h1, h1', h1'', bind, Except.bind, pure, Except.pure],
          by rw [Rpc.want, h2, h2', h2'']; rfl, Or.inr (Or.inr (Or.inr ⟨_, _, Or.inr rfl⟩))⟩
      · exact absurd h (by simp)
  | add =>
    match l, h with
    | [i, p], h =>
      rw [nums] at h
      split at h
      · rename_i hn
        rw [Bool.and_eq_true] at hn
        cases h
        obtain ⟨b, h1, h2⟩ := pack_int hn.1
        obtain ⟨b', h1', -, h2', -⟩ := pack_nat (w := 32) (by decide) hn.2
        exact ⟨.sessAdd b (some b') none, by simp only [List.map, Cmd.read, parseInt, h1, h1', bind, Except.bind, pure, Except.pure],
          by simp only [Rpc.want, h2, Option.map, h2'], Or.inl ⟨_, _, _, rfl⟩⟩
      · exact absurd h (by simp)
  | addMc =>
    match l, h with
    | [i, p], h =>
      rw [nums] at h
      split at h
      · rename_i hn
        rw [Bool.and_eq_true] at hn
        cases h
        obtain ⟨b, h1, h2⟩ := pack_int hn.1
        obtain ⟨b', h1', -, h2', -⟩ := pack_nat (w := 32) (by decide) hn.2
        exact ⟨.sessAdd b none (some b'), by simp only [List.map, Cmd.read, parseInt, h1, h1', bind, Except.bind, pure, Except.pure],
          by simp only [Rpc.want, h2, Option.map, h2'], Or.inl ⟨_, _, _, rfl⟩⟩
      · exact absurd h (by simp)
  | del =>
    match l, h with
    | [i], h =>
      rw [nums] at h
      split at h
      · rename_i hn
        cases h
        obtain ⟨b, h1, h2⟩ := pack_int hn
        exact ⟨.sessDel b, by simp only [List.map, Cmd.read, parseInt, h1, bind, Except.bind, pure, Except.pure],
          by simp only [Rpc.want, h2], Or.inr (Or.inl ⟨b, rfl, by rw [h2]⟩)⟩
      · exact absurd h (by simp)
  | get =>
    match l, h with
    | [i], h =>
      rw [nums] at h
      split at h
      · rename_i hn
        cases h
        obtain ⟨b, h1, h2⟩ := pack_int hn
        exact ⟨.sessGet b, by simp only [List.map, Cmd.read, parseInt, h1, bind, Except.bind, pure, Except.pure],
          by simp only [Rpc.want, h2], Or.inr (Or.inr (Or.inl ⟨b, rfl, by rw [h2]⟩))⟩
      · exact absurd h (by simp)

theorem mapM_some : ∀ {args : List (Option Int)} {l : List Int}, args.mapM id = some l → args = l.map some
  | [], l, h => by cases Option.some.inj h; rfl
  | none :: args, l, h => by simp [List.mapM_cons] at h
  | some x :: args, l, h => by
    rw [List.mapM_cons] at h
    cases hm : args.mapM id with
    | none => rw [hm] at h; simp at h
    | some l' =>
      rw [hm] at h
      cases Option.some.inj h
      rw [mapM_some hm]; rfl

/-- Bad lines are told. -/
theorem read_bad (c : Cmd) (args : List (Option Int)) (h : line c args = .bad) : c.read args = .error .told := by
  have nb : ∀ c l, nums c l ≠ .bad := by
    intro c l
    unfold nums
    split <;> first | (split <;> simp) | simp
  rw [line] at h
  split at h
  · rename_i ht
    cases hm : args.mapM id with
    | some l => rw [hm] at h; exact absurd h (nb c l)
    | none =>
      match args, hm, ht with
      | [none], _, _ => cases c <;> rfl
      | [some x], hm, _ => exact absurd hm (by simp)
      | [none, _], _, _ => cases c <;> rfl
      | [some x, none], _, _ => cases c <;> rfl
      | [some x, some y], hm, _ => exact absurd hm (by simp)
      | [none, _, _], _, _ => cases c <;> rfl
      | [some x, none, _], _, _ => cases c <;> rfl
      | [some x, some y, none], _, _ => cases c <;> rfl
      | [some x, some y, some z], hm, _ => exact absurd hm (by simp)
      | [], hm, _ => exact absurd hm (by simp)
      | _ :: _ :: _ :: _ :: l, _, ht =>
        cases c <;> simp only [Cmd.Takes, List.length_cons] at ht <;> omega
  · rename_i ht
    split at h
    · exact absurd h (by simp)
    · rename_i hc
      match args, ht, hc with
      | [], _, _ => cases c <;> rfl
      | [x], ht, hc => cases c <;> first | rfl | exact absurd (by simp [Cmd.Takes]) ht
      | [x, y], ht, hc => cases c <;> first | rfl | exact absurd (by simp [Cmd.Takes]) ht
      | x :: y :: z :: l, ht, hc => cases c <;> first | rfl | exact absurd (by simp) hc

theorem cli_tells {w : Want} {r : Rpc} {told : Told} {a : Reply} (ha : Answers r told a) (hw : r.want = some w)
    (hr : (∃ id p g, r = .sessAdd id p g) ∨ (∃ id, r = .sessDel id ∧ w = .del id.toInt) ∨ (∃ id, r = .sessGet id ∧ w = .get id.toInt) ∨
        ∃ x k, w = .depth x k ∨ w = .rate x k) (hok : (∃ id p g, r = .sessAdd id p g) → told = .ok ∨ told = .refused) :
    Tells w told a.cli a.shown := by
  rcases hr with ⟨id, p, g, rfl⟩ | ⟨id, rfl, rfl⟩ | ⟨id, rfl, rfl⟩ | ⟨x, k, hx⟩
  · rcases hok ⟨id, p, g, rfl⟩ with rfl | rfl
    · rw [show a = .void from ha rfl]; exact ⟨rfl, rfl⟩
    · rw [Rpc.want] at hw
      cases Option.some.inj hw
      rintro ⟨i, h | h⟩ <;> exact absurd h (by simp)
  · rcases ha with ⟨rfl, rfl⟩ | ⟨rfl, rfl⟩
    · exact ⟨rfl, rfl⟩
    · exact fun _ => ⟨rfl, rfl⟩
  · rcases ha with ⟨p, g, rfl, rfl⟩ | ⟨rfl, rfl⟩
    · exact ⟨rfl, rfl⟩
    · exact fun _ => ⟨rfl, rfl⟩
  · have key : ((told = .ok ∧ a = .int 0) ∨ (told = .refused ∧ a = .exception)) → Tells w told a.cli a.shown := by
      rintro (⟨rfl, rfl⟩ | ⟨rfl, rfl⟩)
      · exact ⟨rfl, rfl⟩
      · rintro ⟨i, h | h⟩ <;> rcases hx with hx | hx <;> rw [hx] at h <;> exact absurd h (by simp)
    cases r with
    | mapAdd => rw [Rpc.want] at hw; cases Option.some.inj hw; rcases hx with hx | hx <;> exact absurd hx (by simp)
    | mapDel => rw [Rpc.want] at hw; cases Option.some.inj hw; rcases hx with hx | hx <;> exact absurd hx (by simp)
    | mapGet => rw [Rpc.want] at hw; cases Option.some.inj hw; rcases hx with hx | hx <;> exact absurd hx (by simp)
    | sessAdd => rw [Rpc.want] at hw; cases Option.some.inj hw; rcases hx with hx | hx <;> exact absurd hx (by simp)
    | sessDel => rw [Rpc.want] at hw; cases Option.some.inj hw; rcases hx with hx | hx <;> exact absurd hx (by simp)
    | sessGet => rw [Rpc.want] at hw; cases Option.some.inj hw; rcases hx with hx | hx <;> exact absurd hx (by simp)
    | depthPri => exact key ha
    | depth => exact key ha
    | depthAll => exact key ha
    | ratePri => exact key ha
    | rate => exact key ha
    | rateAll => exact key ha

/-! ## Everything -/

theorem want_add_told (nb : Nat) (ticks : Nat → Nat) (t : Int) (st : St T) (id : Int) (p g : Option Nat) :
    (want nb ticks t st (.add id p g)).2 = .ok ∨ (want nb ticks t st (.add id p g)).2 = .refused := by
  rw [want]
  split
  · exact Or.inl rfl
  · exact Or.inr rfl

theorem pd_want (c : Pd) : c.rpc.want = some c.want := by
  have key : ∀ x : BitVec 16, (x.setWidth 32).toInt = x.toNat ∧ (x.setWidth 32).toNat = x.toNat := by
    intro x
    have h1 : (x.setWidth 32).toNat = x.toNat := by
      rw [BitVec.toNat_setWidth]
      exact Nat.mod_eq_of_lt (Nat.lt_trans x.isLt (by decide))
    refine ⟨?_, h1⟩
    rw [BitVec.toInt_eq_toNat_of_lt, h1]
    rw [h1]
    have := x.isLt
    omega
  cases c <;> simp only [Pd.rpc, Rpc.want, Pd.want, (key _).1, (key _).2]

theorem step_ok (h : Inv F n s st) (hn : n + 1 < 2 ^ 64) (hpri : F.nbPri ≤ 32) (t : Int) (e : Ev T) (he : Possible e) :
    ∃ s' a st', s.step F t e = some (s', a) ∧ Inv F (n + 1) s' st' ∧ Does F st t st' e a := by
  cases e with
  | queue op =>
    obtain ⟨r, q, h1, h2, h3⟩ := h.rep.exec hn hpri op
    exact ⟨{ s with q := q }, .queue r, { st with lines := Queueing.effect F st.lines op r }, by rw [Sw.step, h1]; rfl, ⟨h.sess, h.range, h3⟩, h2, rfl⟩
  | thrift r =>
    cases hw : r.want with
    | none => exact absurd hw he
    | some w =>
      obtain ⟨s', a, h1, h2, h3⟩ := rpc_ok h hn hpri t r hw
      exact ⟨s', .reply a, _, by rw [Sw.step, h1]; rfl, h2, w, hw, rfl, h3⟩
  | pd dev c =>
    by_cases hd : 0 ≤ dev ∧ dev < 256
    · obtain ⟨s', a, h1, h2, h3⟩ := rpc_ok h hn hpri t c.rpc (pd_want c)
      refine ⟨s', .reply a, _, ?_, h2, fun _ => rfl, fun k => absurd hd k⟩
      rw [Sw.step, Sw.pd, if_neg (by omega), h1]; rfl
    · refine ⟨s, .reply (.int 1), st, ?_, h.next, fun k => absurd k hd, fun _ => ⟨rfl, rfl⟩⟩
      rw [Sw.step, Sw.pd, if_pos (by omega)]; rfl
  | piSet id c =>
    by_cases hc : c.both = true ∧ c.maxLen = 0
    · obtain ⟨h1, h2⟩ := add_ok h t id.toInt (if c.portValid then some c.port.toNat else none)
        (if c.groupValid then some c.group.toNat else none)
      have hb : ¬c.both = false := by rw [hc.1]; decide
      refine ⟨_, _, _, rfl, ?_, fun _ => ⟨rfl, ?_⟩, fun k => absurd hc k⟩
      · simp only [Sw.piSet, if_neg hb, if_neg (not_not.mpr hc.2)]
        exact h1
      · rw [PiConf.want, h2]
        simp only [Sw.piSet, if_neg hb, if_neg (not_not.mpr hc.2)]
        cases (addSession s.sess id.toInt ⟨if c.portValid then some c.port.toNat else none,
          if c.groupValid then some c.group.toNat else none⟩).1 <;> rfl
    · have : s.piSet id c = (s, .notImplemented) := by
        rw [Sw.piSet]
        by_cases hb : c.both = false
        · rw [if_pos hb]
        · rw [if_neg hb, if_pos (fun k => hc ⟨by simpa using hb, k⟩)]
      refine ⟨s, .status .notImplemented, st, by rw [Sw.step, this], h.next, fun k => absurd k hc, fun _ => ⟨rfl, rfl⟩⟩
  | piReset id =>
    obtain ⟨h1, h2⟩ := del_ok h t id.toInt
    refine ⟨_, _, _, rfl, h1, rfl, ?_⟩
    rw [h2]
    simp only [Sw.piReset]
    cases (deleteSession s.sess id.toInt).1 <;> rfl
  | cli c args =>
    cases hl : line c args with
    | other => exact absurd hl he
    | bad =>
      refine ⟨s, .cli .told none, st, by rw [Sw.step, read_bad c args hl], h.next, Or.inr ⟨hl, rfl, rfl, rfl⟩⟩
    | wants w =>
      have hl' := hl
      rw [line] at hl'
      split at hl'
      · cases hm : args.mapM id with
        | none => rw [hm] at hl'; exact absurd hl' (by simp)
        | some l =>
          rw [hm] at hl'
          obtain ⟨r, h1, h2, h3⟩ := read_nums c l hl'
          obtain ⟨s', a, k1, k2, k3⟩ := rpc_ok h hn hpri t r h2
          refine ⟨s', .cli a.cli a.shown, _, ?_, k2, Or.inl ⟨w, hl, rfl, ?_⟩⟩
          · rw [mapM_some hm, Sw.step, h1]
            simp only [k1]; rfl
          · refine cli_tells k3 h2 h3 ?_
            rintro ⟨i, p, g, rfl⟩
            rw [Rpc.want] at h2
            cases Option.some.inj h2
            exact want_add_told _ _ _ _ _ _ _
      · split at hl' <;> exact absurd hl' (by simp)

theorem run_ok (hpri : F.nbPri ≤ 32) : ∀ (es : List (Int × Ev T)) {n : Nat} {s : Sw T} {st : St T}, Inv F n s st →
    n + es.length < 2 ^ 64 → (∀ e ∈ es, Possible e.2) →
    ∃ s' as st', s.run F es = some (s', as) ∧ Inv F (n + es.length) s' st' ∧ Follows F st st' es as
  | [], n, s, st, h, _, _ => ⟨s, [], st, rfl, h, rfl⟩
  | (t, e) :: es, n, s, st, h, hn, hp => by
    rw [List.length_cons] at hn
    obtain ⟨s1, a, st1, h1, h2, h3⟩ := step_ok h (by omega) hpri t e (hp _ List.mem_cons_self)
    obtain ⟨s2, as, st2, k1, k2, k3⟩ := run_ok hpri es h2 (by omega) (fun x hx => hp x (List.mem_cons_of_mem _ hx))
    refine ⟨s2, a :: as, st2, ?_, ?_, st1, h3, k3⟩
    · rw [Sw.run, h1]
      simp only [Option.bind_eq_bind, Option.bind_some, k1]
      rfl
    · rw [List.length_cons, show n + (es.length + 1) = n + 1 + es.length from by omega]
      exact k2

end Bm.SsMgmt
