import Verif.Lemmas.P4dbgStep

/-!
# The tool and the debugger: commands
-/

namespace Bm.P4dbg

open Bm.Debugger.Spec (Pid Pkt Req Msg Vis attached pending inside value places watching breaksIn stopsIn chosen
  ctrField report bytes4 answer)
open Bm.P4dbg.Spec

theorem tx_step {P : Program} {s : Debugger.State} {m : Mode} {h : List Vis} {u : List UVis} (i : SI P s m h u)
    {x : Debugger.State × Mode × List UVis} (hs : step P s m .tx = some x) :
    ∃ h', SI P x.1 x.2.1 h' (x.2.2 ++ u) := by
  cases m with
  | sending t c b =>
    obtain ⟨h1, h2, h3, h4, n, r, h5, h6, hb⟩ := i.mi
    simp only [step, h5] at hs
    obtain ⟨s', rfl, hd, hr⟩ := sw_ok i (by intro w hw; cases hw) hs
    simp only [Debugger.step, h3] at hd
    cases hd
    exact ⟨h, ⟨hr, i.same, i.env, ⟨h1, h2, h4, n, r, h5, h6, .inl ⟨rfl, rfl, hb⟩⟩, i.good⟩⟩
  | off => cases hs
  | prompt t => cases hs
  | busy t c b => cases hs
  | dead => cases hs

theorem intr_step {P : Program} {s : Debugger.State} {m : Mode} {h : List Vis} {u : List UVis} (i : SI P s m h u)
    {x : Debugger.State × Mode × List UVis} (hs : step P s m .intr = some x) :
    ∃ h', SI P x.1 x.2.1 h' (x.2.2 ++ u) := by
  cases m with
  | busy t c b =>
    obtain ⟨h1, h2, h4, n, r, h5, h6, hb⟩ := i.mi
    simp only [step] at hs
    split at hs
    case isFalse => cases hs
    rename_i hg
    cases hs
    refine ⟨h, ⟨i.run, i.same, i.env, ⟨h1, h2, Nat.le_succ_of_le h4, n, r, h5, h6, ?_⟩, .intr i.good h2 hg⟩⟩
    rcases hb with ⟨h3, h7, hb⟩ | ⟨h3, h0, h7, hb⟩
    · left
      refine ⟨h3, h7, ?_⟩
      rcases hb with ⟨rfl, -⟩ | ⟨rfl, -⟩ | ⟨hg, hr, ha, hT, hH, hS⟩ | ⟨hg', -⟩
      · cases hg
      · cases hg
      · exact .inr (.inr (.inl ⟨hg, hr, ha, hT.intr, hH.intr, hS⟩))
      · rw [hg] at hg'; cases hg'
    · right
      refine ⟨h3, h0, h7, ?_⟩
      rcases hb with ⟨rfl, -⟩ | ⟨rfl, -⟩ | ⟨hg, hr, ha, hT, hH, hS⟩ | ⟨hg', -⟩
      · cases hg
      · cases hg
      · exact .inr (.inr (.inl ⟨hg, hr, ha, hT.intr, hH.intr, hS⟩))
      · rw [hg] at hg'; cases hg'
  | off => cases hs
  | prompt t => cases hs
  | sending t c b => cases hs
  | dead => cases hs

theorem send_eq {t : Tool} {ty : Nat} {ps : List Int} {b : Bytes} (h : generate t.reqId ty ps = some b) :
    send t ty ps = .send { t with reqId := t.reqId + 1 } b := by
  unfold send; rw [h]

theorem up_step {P : Program} {s : Debugger.State} {m : Mode} {h : List Vis} {u : List UVis} (i : SI P s m h u)
    {x : Debugger.State × Mode × List UVis} (hs : step P s m .up = some x) :
    ∃ h', SI P x.1 x.2.1 h' (x.2.2 ++ u) := by
  cases m with
  | off =>
    obtain ⟨h1, h2, h3⟩ := i.mi
    obtain ⟨b, hb, hd⟩ := decode_plain (n := 0) (ty := 18) (r := .attach) (by omega) rfl
    simp only [step, begin] at hs
    rw [send_eq (t := {}) hb] at hs
    cases hs
    exact ⟨h, ⟨i.run, i.same, i.env, ⟨rfl, rfl, h3, by simp, 0, .attach, hd, by omega, .inl ⟨rfl, rfl, h2, trivial, rfl⟩⟩,
      .up i.good h1⟩⟩
  | prompt t => cases hs
  | sending t c b => cases hs
  | busy t c b => cases hs
  | dead => cases hs

/-! ## Commands -/

/-- Nothing changed. -/
structure Like (P : Program) (u' u : List UVis) : Prop where
  w : ∀ id, Watched P id u' ↔ Watched P id u
  b : ∀ v, BreakAt P v u' ↔ BreakAt P v u
  k : ∀ p, Skipped p u' ↔ Skipped p u
  c : current u' = current u
  f : Stale u' ↔ Stale u
  br : BreaksIn u' ↔ BreaksIn u
  st : StopsIn u' ↔ StopsIn u
  a : Fresh u' ↔ Fresh u

theorem TU.like {P : Program} {t : Tool} {u u' : List UVis} (i : TU P t u) (l : Like P u' u) : TU P t u' :=
  ⟨fun id => (i.wps id).trans (l.w id).symm, fun v => (i.bps v).trans (l.b v).symm, fun p => (i.sk p).trans (l.k p).symm,
    i.cur.trans l.c.symm, i.cb, i.fl.trans l.f.symm, fun h => i.br (l.br.mp h), fun h => i.st (l.st.mp h),
    fun h => i.att (l.a.mp h)⟩

theorem HU.like {P : Program} {h : List Vis} {u u' : List UVis} (i : HU P h u) (l : Like P u' u) : HU P h u' :=
  ⟨fun id hn => (i.w1 id hn).trans (l.w id).symm, fun v hv => i.w2 v ((l.b v).mp hv), i.b1.trans l.br.symm,
    i.s1.trans l.st.symm, i.ch⟩

theorem cmd_send {P : Program} {s : Debugger.State} {t : Tool} {h : List Vis} {u : List UVis} (i : SI P s (.prompt t) h u)
    {c : Cmd} {b : Bytes} {r : Req} (hd : decode b = some (t.reqId, r)) (hn : t.reqId < 2 ^ 64)
    (hB : Before P { t with reqId := t.reqId + 1 } c r h (.cmd c :: u)) :
    SI P s (.sending { t with reqId := t.reqId + 1 } c b) h (.cmd c :: u) := by
  obtain ⟨h1, h2, h3, h4, h5, -, -⟩ := i.mi
  exact ⟨i.run, i.same, i.env, ⟨h1, rfl, h4, Nat.succ_le_succ h5, _, _, hd, hn, hB⟩, .cmd i.good h1 h2⟩

theorem cmd_say {P : Program} {s : Debugger.State} {t t' : Tool} {h : List Vis} {u : List UVis} (i : SI P s (.prompt t) h u)
    {c : Cmd} {o : Out} (ht : t'.reqId = t.reqId) (ho : on (.out o :: .cmd c :: u) = on u)
    (hT : TU P t' (.out o :: .cmd c :: u)) (hH : HU P h (.out o :: .cmd c :: u)) (hg : goes c = false) (h6 : c ≠ .attach)
    (h7 : c ≠ .eof) (hA : Answer P u c o) : SI P s (.prompt t') h (.out o :: .cmd c :: u) := by
  obtain ⟨h1, h2, h3, h4, h5, -, -⟩ := i.mi
  refine ⟨i.run, i.same, i.env, ⟨ho.trans h1, rfl, h3, h4, ?_, hT, hH⟩, .answer (.cmd i.good h1 h2) hg h6 h7 hA⟩
  rw [ht]
  exact Nat.le_succ_of_le (Nat.le_succ_of_le h5)

theorem watched_named {P : Program} {id : Nat} : ∀ {u : List UVis}, Watched P id u → ∃ f, Named P f id := by
  intro u
  induction u with
  | nil => intro h; exact h.elim
  | cons v u ih =>
    intro h
    unfold Watched at h
    split at h
    · exact h.elim
    · exact h.elim
    · exact h.elim
    · rename_i e; cases e
      rcases h with h | h
      · exact ⟨_, h⟩
      · exact ih h
    · rename_i e; cases e; exact ih h.2
    · rename_i e; cases e; exact ih h

theorem breakAt_place {P : Program} {v : Nat} : ∀ {u : List UVis}, BreakAt P v u → ∃ t o, Place P t o v := by
  intro u
  induction u with
  | nil => intro h; exact h.elim
  | cons v u ih =>
    intro h
    unfold BreakAt at h
    split at h
    · exact h.elim
    · exact h.elim
    · exact h.elim
    · rename_i e; cases e
      rcases h with h | h
      · exact ⟨_, _, h⟩
      · exact ih h
    · rename_i e; cases e; exact ih h.2
    · rename_i e; cases e; exact ih h

theorem mapM_some {α β : Type} {f : α → Option β} : ∀ {l : List α}, (∀ x ∈ l, ∃ y, f x = some y) →
    ∃ l', l.mapM f = some l' ∧ List.Forall₂ (fun x y => f x = some y) l l' := by
  intro l
  induction l with
  | nil => intro _; exact ⟨[], rfl, .nil⟩
  | cons a l ih =>
    intro h
    obtain ⟨y, hy⟩ := h a List.mem_cons_self
    obtain ⟨l', hl, hf⟩ := ih fun x hx => h x (List.mem_cons_of_mem _ hx)
    exact ⟨y :: l', by simp [List.mapM_cons, hy, hl], .cons hy hf⟩

theorem forall₂_mem {α β : Type} {f : α → Option β} {l : List α} {l' : List β}
    (h : List.Forall₂ (fun x y => f x = some y) l l') (y : β) : y ∈ l' ↔ ∃ x ∈ l, f x = some y := by
  induction h with
  | nil => simp
  | cons h1 _ ih =>
    simp only [List.mem_cons, ih]
    constructor
    · rintro (rfl | ⟨x, hx, hy⟩)
      · exact ⟨_, .inl rfl, h1⟩
      · exact ⟨x, .inr hx, hy⟩
    · rintro ⟨x, rfl | hx, hy⟩
      · left; rw [h1] at hy; cases hy; rfl
      · exact .inr ⟨x, hx, hy⟩

theorem mem_add {α : Type} [DecidableEq α] (a b : α) (l : List α) : b ∈ add a l ↔ b = a ∨ b ∈ l := by
  unfold add
  split
  · constructor
    · exact .inr
    · rintro (rfl | h) <;> assumption
  · simp

theorem mem_del {α : Type} [DecidableEq α] (a b : α) (l : List α) : b ∈ del a l ↔ b ≠ a ∧ b ∈ l := by
  unfold del
  simp [and_comm]

theorem placed_iff {P : Program} (ok : P.Ok) {t o : String} {v : Nat} (hv : Place P t o v) (w : Nat) :
    Place P t o w ↔ w = v := ⟨fun h => ok.place _ _ _ _ h hv, by rintro rfl; exact hv⟩

theorem named_iff {P : Program} (ok : P.Ok) {f : String} {v : Nat} (hv : Named P f v) (w : Nat) :
    Named P f w ↔ w = v := ⟨fun h => ok.name _ _ _ h hv, by rintro rfl; exact hv⟩

theorem resolve_place {P : Program} (ok : P.Ok) {t o : String} {v : Nat} (hv : ∃ t o, Place P t o v) :
    resolve P v = some (t, o) ↔ Place P t o v := by
  obtain ⟨t', o', h'⟩ := hv
  have := place_lt ok h'
  rw [resolve_iff ok (by omega)]
  constructor
  · rintro ⟨w, hw, rfl | rfl⟩
    · exact hw
    · omega
  · intro h; exact ⟨v, h, .inl rfl⟩

theorem packet_subject {P : Program} {t : Tool} {u : List UVis} (hT : TU P t u) {p : Option (Int × Int)}
    (hp : ∀ q, p = some q → 0 ≤ q.1 ∧ q.1 < 2 ^ 64 ∧ 0 ≤ q.2 ∧ q.2 < 2 ^ 64) :
    (packet t p = none ∧ subject u p = none) ∨
    ∃ q, packet t p = some q ∧ subject u p = some (q.1.toNat, q.2.toNat) ∧
      (0 ≤ q.1 ∧ q.1 < 2 ^ 64) ∧ 0 ≤ q.2 ∧ q.2 < 2 ^ 64 := by
  cases p with
  | some q =>
    obtain ⟨h1, h2, h3, h4⟩ := hp q rfl
    exact .inr ⟨q, rfl, rfl, ⟨h1, h2⟩, h3, h4⟩
  | none =>
    cases hc : t.current with
    | none => exact .inl ⟨by simp [packet, hc], by rw [subject, ← hT.cur, hc]⟩
    | some q =>
      have := hT.cb q hc
      refine .inr ⟨((q.1 : Int), (q.2 : Int)), by simp [packet, hc], by rw [subject, ← hT.cur, hc]; simp, ?_⟩
      simp only; omega

theorem cmd_step {P : Program} (ok : P.Ok) {s : Debugger.State} {m : Mode} {h : List Vis} {u : List UVis} (i : SI P s m h u)
    {c : Cmd} (hc : Careful P u c) {x : Debugger.State × Mode × List UVis} (hs : step P s m (.cmd c) = some x) :
    ∃ h', SI P x.1 x.2.1 h' (x.2.2 ++ u) := by
  cases m with
  | off => cases hs
  | sending t c b => cases hs
  | busy t c b => cases hs
  | dead => cases hs
  | prompt t =>
  obtain ⟨h1, h2, h3, h4, h5, hT, hH⟩ := i.mi
  obtain ⟨hc1, hc2, hc3⟩ := hc
  have hn : t.reqId < 2 ^ 64 := by omega
  simp only [step] at hs
  refine ⟨h, ?_⟩
  have plainly : ∀ {ty r}, plain ty = some r → begin P t c = send t ty [] →
      Before P { t with reqId := t.reqId + 1 } c r h (.cmd c :: u) → SI P x.1 x.2.1 h (x.2.2 ++ u) := by
    intro ty r hp hb hB
    obtain ⟨b, hg, hd⟩ := decode_plain hn hp
    rw [hb, send_eq hg] at hs
    cases hs
    exact cmd_send i hd hn hB
  have tells : ∀ {t' o}, begin P t c = .say t' o → t'.reqId = t.reqId → on (.out o :: .cmd c :: u) = on u →
      TU P t' (.out o :: .cmd c :: u) → HU P h (.out o :: .cmd c :: u) → goes c = false → c ≠ .eof → Answer P u c o →
      SI P x.1 x.2.1 h (x.2.2 ++ u) := by
    intro t' o hb h6 h7 h8 h9 h10 h11 h12
    rw [hb] at hs
    cases hs
    exact cmd_say i h6 h7 h8 h9 h10 hc2 h11 h12
  have likes : ∀ {o}, begin P t c = .say t o → on (.out o :: .cmd c :: u) = on u →
      Like P (.out o :: .cmd c :: u) u → goes c = false → c ≠ .eof → Answer P u c o →
      SI P x.1 x.2.1 h (x.2.2 ++ u) := by
    intro o hb h7 h8 h10 h11 h12
    exact tells hb rfl h7 (hT.like h8) (hH.like h8) h10 h11 h12
  cases c with
  | attach => exact absurd rfl hc2
  | eof => exact plainly (ty := 19) rfl rfl (.inr (.inl ⟨rfl, rfl, h3⟩))
  | cont =>
    exact plainly (ty := 3) rfl rfl (.inr (.inr (.inl ⟨rfl, rfl, h3, (hT.cmd rfl).reqId _, hH.cmd rfl, fun _ h => h.elim⟩)))
  | next =>
    exact plainly (ty := 4) rfl rfl (.inr (.inr (.inl ⟨rfl, rfl, h3, (hT.cmd rfl).reqId _, hH.cmd rfl, fun _ h => h.elim⟩)))
  | reset =>
    exact plainly (ty := 16) rfl rfl (.inr (.inr (.inr ⟨rfl, by simp, by simp, h3, u, rfl, hT.reqId _, hH, rfl⟩)))
  | breakIn =>
    exact plainly (ty := 8) rfl rfl (.inr (.inr (.inr ⟨rfl, by simp, by simp, h3, u, rfl, hT.reqId _, hH, rfl⟩)))
  | stopIn =>
    exact plainly (ty := 10) rfl rfl (.inr (.inr (.inr ⟨rfl, by simp, by simp, h3, u, rfl, hT.reqId _, hH, rfl⟩)))
  | removeIn =>
    exact plainly (ty := 9) rfl (by simp only [begin, hT.br hc3])
      (.inr (.inr (.inr ⟨rfl, by simp, by simp, h3, u, rfl, hT.reqId _, hH, rfl, hc3⟩)))
  | resumeIn =>
    exact plainly (ty := 11) rfl (by simp only [begin, hT.st hc3])
      (.inr (.inr (.inr ⟨rfl, by simp, by simp, h3, u, rfl, hT.reqId _, hH, rfl, hc3⟩)))
  | filter l => exact hc3.elim
  | setWp f =>
    cases hf : fieldIdFrom P f with
    | none =>
      have hno : ¬ ∃ id, Named P f id := by
        rintro ⟨id, hid⟩; rw [(fieldIdFrom_iff ok f id).mpr hid] at hf; cases hf
      refine likes (by simp only [begin, hf]) rfl ?_ rfl (by simp) (.inr ⟨hno, rfl⟩)
      exact ⟨fun id => ⟨fun h => h.resolve_left fun h => hno ⟨id, h⟩, .inr⟩, fun _ => Iff.rfl, fun _ => Iff.rfl, rfl, Iff.rfl,
        Iff.rfl, Iff.rfl, Iff.rfl⟩
    | some id =>
      have hN := (fieldIdFrom_iff ok f id).mp hf
      have := named_lt ok hN
      obtain ⟨⟨b, hg, hd⟩, -⟩ := decode_watch (id := id) hn (by omega)
      have hb : begin P t (.setWp f) = .send { t with reqId := t.reqId + 1 } b := by
        simp only [begin, hf]; exact send_eq hg
      rw [hb] at hs; cases hs
      exact cmd_send i hd hn (.inr (.inr (.inr ⟨rfl, by simp, by simp, h3, u, rfl, hT.reqId _, hH, id, hN, rfl⟩)))
  | unsetWp f =>
    have bad : (¬ ∃ id, Named P f id ∧ Watched P id u) → begin P t (.unsetWp f) = .say t .error →
        SI P x.1 x.2.1 h (x.2.2 ++ u) := by
      intro hno hb
      refine likes hb rfl ?_ rfl (by simp) (.inr ⟨hno, rfl⟩)
      exact ⟨fun id => ⟨fun h => h.2, fun h => ⟨fun h' => hno ⟨id, h', h⟩, h⟩⟩, fun _ => Iff.rfl, fun _ => Iff.rfl, rfl, Iff.rfl,
        Iff.rfl, Iff.rfl, Iff.rfl⟩
    cases hf : fieldIdFrom P f with
    | none =>
      refine bad ?_ (by simp only [begin, hf])
      rintro ⟨id, hid, -⟩; rw [(fieldIdFrom_iff ok f id).mpr hid] at hf; cases hf
    | some id =>
      have hN := (fieldIdFrom_iff ok f id).mp hf
      by_cases hw : id ∈ t.wps
      · have := named_lt ok hN
        obtain ⟨-, b, hg, hd⟩ := decode_watch (id := id) hn (by omega)
        have hb : begin P t (.unsetWp f) = .send { t with reqId := t.reqId + 1 } b := by
          simp only [begin, hf, if_pos hw]; exact send_eq hg
        rw [hb] at hs; cases hs
        exact cmd_send i hd hn (.inr (.inr (.inr ⟨rfl, by simp, by simp, h3, u, rfl, hT.reqId _, hH, id, hN, (hT.wps id).mp hw, rfl⟩)))
      · refine bad ?_ (by simp only [begin, hf, if_neg hw])
        rintro ⟨id', hid, hwt⟩
        rw [ok.name _ _ _ hid hN] at hwt
        exact hw ((hT.wps id).mpr hwt)
  | showWps =>
    have hall : ∀ id ∈ t.wps, ∀ f, fieldName P id = some f ↔ Named P f id := by
      intro id hid f
      have hw := (hT.wps id).mp hid
      exact fieldName_iff ok (by rintro rfl; exact hc3.1 hw) (by rintro rfl; exact hc3.2 hw) f
    obtain ⟨l, hl, hf⟩ := mapM_some (f := fieldName P) (l := t.wps) (by
      intro id hid
      obtain ⟨f, hf⟩ := watched_named ((hT.wps id).mp hid)
      exact ⟨f, (hall id hid f).mpr hf⟩)
    have hb : begin P t .showWps = .say t (.names l) := by simp only [begin, hl]
    refine tells hb rfl rfl ((hT.cmd rfl).out rfl) ((hH.cmd rfl).out _) rfl (by simp) ⟨l, rfl, ?_⟩
    intro f
    rw [forall₂_mem hf]
    constructor
    · rintro ⟨id, hid, hx⟩; exact ⟨id, (hall id hid f).mp hx, (hT.wps id).mp hid⟩
    · rintro ⟨id, hid, hx⟩
      have := (hT.wps id).mpr hx
      exact ⟨id, this, (hall id this f).mpr hid⟩
  | brk ty o =>
    cases hf : lookupCtr P ty o with
    | none =>
      have hno : ¬ ∃ v, Place P ty o v := by
        rintro ⟨v, hv⟩; rw [(lookupCtr_iff ok ty o v).mpr hv] at hf; cases hf
      refine likes (by simp only [begin, hf]) rfl ?_ rfl (by simp) (.inr ⟨hno, rfl⟩)
      exact ⟨fun _ => Iff.rfl, fun v => ⟨fun h => h.resolve_left fun h => hno ⟨v, h⟩, .inr⟩, fun _ => Iff.rfl, rfl, Iff.rfl,
        Iff.rfl, Iff.rfl, Iff.rfl⟩
    | some v =>
      have hN := (lookupCtr_iff ok ty o v).mp hf
      cases hbp : t.bps with
      | nil =>
        obtain ⟨⟨b, hg, hd⟩, -⟩ := decode_watch (n := t.reqId) (id := ctrField) hn (by unfold ctrField; omega)
        have hlit : ((ctrField : Nat) : Int) = 0xffffffffffffffff := by unfold ctrField; omega
        rw [hlit] at hg
        have hb : begin P t (.brk ty o) = .send { t with reqId := t.reqId + 1 } b := by
          simp only [begin, hf]
          rw [if_pos (by rw [hbp]; rfl)]
          exact send_eq hg
        rw [hb] at hs; cases hs
        refine cmd_send i hd hn (.inr (.inr (.inr ⟨rfl, by simp, by simp, h3, u, rfl, hT.reqId _, hH, ⟨v, hN⟩, ?_, rfl⟩)))
        intro w hw
        have := (hT.bps w).mpr hw
        rw [hbp] at this; cases this
      | cons v0 l0 =>
        have hb : begin P t (.brk ty o) = .say { t with bps := add v t.bps } .done := by
          simp only [begin, hf, hbp, List.isEmpty_cons, Bool.false_eq_true, if_false]
        refine tells hb rfl rfl ?_ ?_ rfl (by simp) (.inl ⟨⟨v, hN⟩, rfl⟩)
        · refine ⟨hT.wps, ?_, hT.sk, hT.cur, hT.cb, hT.fl, hT.br, hT.st, hT.att⟩
          intro w
          simp only [mem_add, hT.bps]
          exact or_congr (placed_iff ok hN w).symm Iff.rfl
        · refine ⟨hH.w1, ?_, hH.b1, hH.s1, hH.ch⟩
          intro _ _
          exact hH.w2 v0 ((hT.bps v0).mp (by rw [hbp]; exact List.mem_cons_self))
  | delete ty o =>
    have bad : (¬ ∃ v, Place P ty o v ∧ BreakAt P v u) → begin P t (.delete ty o) = .say t .error →
        SI P x.1 x.2.1 h (x.2.2 ++ u) := by
      intro hno hb
      refine likes hb rfl ?_ rfl (by simp) (.inr ⟨hno, rfl⟩)
      exact ⟨fun _ => Iff.rfl, fun v => ⟨fun h => h.2, fun h => ⟨fun h' => hno ⟨v, h', h⟩, h⟩⟩, fun _ => Iff.rfl, rfl, Iff.rfl,
        Iff.rfl, Iff.rfl, Iff.rfl⟩
    cases hf : lookupCtr P ty o with
    | none =>
      refine bad ?_ (by simp only [begin, hf])
      rintro ⟨v, hv, -⟩; rw [(lookupCtr_iff ok ty o v).mpr hv] at hf; cases hf
    | some v =>
      have hN := (lookupCtr_iff ok ty o v).mp hf
      by_cases hw : v ∈ t.bps
      · have hb : begin P t (.delete ty o) = .say { t with bps := del v t.bps } .done := by
          simp only [begin, hf, if_pos hw]
        refine tells hb rfl rfl ?_ ?_ rfl (by simp) (.inl ⟨⟨v, hN, (hT.bps v).mp hw⟩, rfl⟩)
        · refine ⟨hT.wps, ?_, hT.sk, hT.cur, hT.cb, hT.fl, hT.br, hT.st, hT.att⟩
          intro w
          simp only [mem_del, hT.bps]
          exact and_congr (not_congr (placed_iff ok hN w).symm) Iff.rfl
        · exact ⟨hH.w1, fun w hw => hH.w2 w hw.2, hH.b1, hH.s1, hH.ch⟩
      · refine bad ?_ (by simp only [begin, hf, if_neg hw])
        rintro ⟨v', hv, hwt⟩
        rw [ok.place _ _ _ _ hv hN] at hwt
        exact hw ((hT.bps v).mpr hwt)
  | showBps =>
    have hall : ∀ v ∈ t.bps, ∀ x : String × String, resolve P v = some x ↔ Place P x.1 x.2 v := by
      intro v hv x
      exact resolve_place ok (breakAt_place ((hT.bps v).mp hv))
    obtain ⟨l, hl, hf⟩ := mapM_some (f := resolve P) (l := t.bps) (by
      intro v hv
      obtain ⟨a, b, hab⟩ := breakAt_place ((hT.bps v).mp hv)
      exact ⟨(a, b), (hall v hv (a, b)).mpr hab⟩)
    have hb : begin P t .showBps = .say t (.objs l) := by simp only [begin, hl]
    refine tells hb rfl rfl ((hT.cmd rfl).out rfl) ((hH.cmd rfl).out _) rfl (by simp) ⟨l, rfl, ?_⟩
    intro y
    rw [forall₂_mem hf]
    constructor
    · rintro ⟨v, hv, hx⟩; exact ⟨v, (hall v hv y).mp hx, (hT.bps v).mp hv⟩
    · rintro ⟨v, hv, hx⟩
      have := (hT.bps v).mpr hx
      exact ⟨v, this, (hall v this y).mpr hv⟩
  | print p f =>
    have hp : ∀ q, p = some q → 0 ≤ q.1 ∧ q.1 < 2 ^ 64 ∧ 0 ≤ q.2 ∧ q.2 < 2 ^ 64 := by
      rintro q rfl; exact hc3
    rcases packet_subject hT hp with ⟨h6, h7⟩ | ⟨q, h6, h7, h8, h9⟩
    · exact tells (by simp only [begin, h6]) rfl rfl ((hT.cmd rfl).out rfl) ((hH.cmd rfl).out _) rfl (by simp)
        (.inl ⟨.inl h7, rfl⟩)
    · cases hf : fieldIdFrom P f with
      | none =>
        have hno : ¬ ∃ id, Named P f id := by
          rintro ⟨id, hid⟩; rw [(fieldIdFrom_iff ok f id).mpr hid] at hf; cases hf
        exact tells (by simp only [begin, h6, hf]) rfl rfl ((hT.cmd rfl).out rfl) ((hH.cmd rfl).out _) rfl (by simp)
          (.inl ⟨.inr hno, rfl⟩)
      | some id =>
        have hN := (fieldIdFrom_iff ok f id).mp hf
        have := named_lt ok hN
        obtain ⟨b, hg, hd⟩ := decode_value (id := id) hn (by omega) h8 h9
        have hb : begin P t (.print p f) = .send { t with reqId := t.reqId + 1 } b := by
          simp only [begin, h6, hf]; exact send_eq hg
        rw [hb] at hs; cases hs
        exact cmd_send i hd hn (.inr (.inr (.inr ⟨rfl, by simp, by simp, h3, u, rfl, hT.reqId _, hH, _, id, h7, hN, rfl,
          by simp only; omega, by simp only; omega⟩)))
  | bt p =>
    have hp : ∀ q, p = some q → 0 ≤ q.1 ∧ q.1 < 2 ^ 64 ∧ 0 ≤ q.2 ∧ q.2 < 2 ^ 64 := by
      rintro q rfl; exact hc3
    rcases packet_subject hT hp with ⟨h6, h7⟩ | ⟨q, h6, h7, h8, h9⟩
    · exact tells (by simp only [begin, h6]) rfl rfl ((hT.cmd rfl).out rfl) ((hH.cmd rfl).out _) rfl (by simp)
        (.inl ⟨h7, rfl⟩)
    · obtain ⟨b, hg, hd⟩ := decode_backtrace hn h8 h9
      have hb : begin P t (.bt p) = .send { t with reqId := t.reqId + 1 } b := by
        simp only [begin, h6]; exact send_eq hg
      rw [hb] at hs; cases hs
      exact cmd_send i hd hn (.inr (.inr (.inr ⟨rfl, by simp, by simp, h3, u, rfl, hT.reqId _, hH, _, h7, rfl,
          by simp only; omega, by simp only; omega⟩)))
  | skip =>
    cases hcu : t.current with
    | none =>
      refine likes (by simp only [begin, hcu]) rfl ?_ rfl (by simp) rfl
      refine ⟨fun _ => Iff.rfl, fun _ => Iff.rfl, fun p => ⟨fun h => h.resolve_left ?_, .inr⟩, rfl, Iff.rfl, Iff.rfl, Iff.rfl, Iff.rfl⟩
      intro h'; rw [← hT.cur, hcu] at h'; cases h'
    | some q =>
      refine tells (t' := { t with skips := add q t.skips }) (by simp only [begin, hcu]) rfl rfl ?_ ?_ rfl (by simp) rfl
      · refine ⟨hT.wps, hT.bps, ?_, hT.cur, hT.cb, hT.fl, hT.br, hT.st, hT.att⟩
        intro p
        have := hT.sk p
        simp only [skipped, Bool.or_eq_true, decide_eq_true_eq, mem_add] at this ⊢
        have e : Skipped p (.out .done :: .cmd .skip :: u) ↔ (current u = some p ∨ Skipped p u) := Iff.rfl
        rw [e, ← this, ← hT.cur, hcu, Option.some.injEq, eq_comm (a := q)]
        exact or_left_comm
      · exact ⟨hH.w1, hH.w2, hH.b1, hH.s1, hH.ch⟩
  | skipAll =>
    cases hcu : t.current with
    | none =>
      refine likes (by simp only [begin, hcu]) rfl ?_ rfl (by simp) rfl
      refine ⟨fun _ => Iff.rfl, fun _ => Iff.rfl, fun p => ⟨fun h => h.resolve_left ?_, .inr⟩, rfl, Iff.rfl, Iff.rfl, Iff.rfl, Iff.rfl⟩
      rintro ⟨q, h', -⟩; rw [← hT.cur, hcu] at h'; cases h'
    | some q =>
      refine tells (t' := { t with skipsAll := add q.1 t.skipsAll }) (by simp only [begin, hcu]) rfl rfl ?_ ?_ rfl (by simp) rfl
      · refine ⟨hT.wps, hT.bps, ?_, hT.cur, hT.cb, hT.fl, hT.br, hT.st, hT.att⟩
        intro p
        have := hT.sk p
        simp only [skipped, Bool.or_eq_true, decide_eq_true_eq, mem_add] at this ⊢
        have e : Skipped p (.out .done :: .cmd .skipAll :: u) ↔ ((∃ q, current u = some q ∧ q.1 = p.1) ∨ Skipped p u) := Iff.rfl
        rw [e, ← this, ← hT.cur, hcu, or_assoc]
        refine or_congr ?_ Iff.rfl
        constructor
        · intro h'; exact ⟨q, rfl, h'.symm⟩
        · rintro ⟨q', h', h''⟩; cases h'; exact h''.symm
      · exact ⟨hH.w1, hH.w2, hH.b1, hH.s1, hH.ch⟩

theorem kill_step {P : Program} (ok : P.Ok) {s : Debugger.State} {m : Mode} {h : List Vis} {u : List UVis} (i : SI P s m h u)
    (hf : Fresh u) (hl : u.length + 1 < 2 ^ 64) {x : Debugger.State × Mode × List UVis} (hs : step P s m .kill = some x) :
    ∃ h', SI P x.1 x.2.1 h' (x.2.2 ++ u) := by
  cases m with
  | off => cases hs
  | sending t c b => cases hs
  | busy t c b => cases hs
  | dead => cases hs
  | prompt t =>
    have hT := i.mi.2.2.2.2.2.1
    simp only [step, hT.att hf, if_true] at hs
    exact cmd_step ok i (c := .eof) ⟨hl, by simp, trivial⟩ hs

end Bm.P4dbg
