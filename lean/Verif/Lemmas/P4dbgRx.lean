import Verif.Lemmas.P4dbgCmd

/-!
# The tool and the debugger: replies
-/

namespace Bm.P4dbg

open Bm.Debugger.Spec (Pid Pkt Req Msg Vis attached pending inside value places watching breaksIn stopsIn chosen
  ctrField report bytes4 answer)
open Bm.P4dbg.Spec

theorem no_stop {P : Program} (ok : P.Ok) {t : Tool} {h : List Vis} {u : List UVis} {c : Cmd} {n : Nat}
    {h0 : List Vis} (hH : HU P h u) (hE : Env P h) (hp : pend u = some c)
    (hq : pending h = some (n, goReq c, h0)) (hg : goes c = true) (hT : TU P t u) (hns : ¬ Bm.Debugger.Spec.Stopped h)
    (htop : (∃ e h1 u1, h = .pkt e :: h1 ∧ strip u = .pkt e :: u1) ∨ ((∀ e h1, h ≠ .pkt e :: h1) ∧ ∀ e, ¬ Stop P u e)) :
    ∀ e, ¬ Stop P u e := by
  intro e' he'
  rcases htop with ⟨e0, h1', u1, hh, hst⟩ | ⟨-, hS⟩
  · rw [stop_strip hst] at he'
    have := wants_stops ok hH hh hE hp hq hg hT he'.2
    rw [hh] at hns
    exact hns this
  · exact hS e' he'

theorem value_len {P : Program} {p : Pid} {id : Nat} {b : Bytes} : ∀ {h : List Vis}, (∀ e, Vis.pkt e ∈ h → FitP P e) →
    value p id h = some b → b.length ≤ 208 := by
  intro h
  induction h with
  | nil => intro _ h; cases h
  | cons v h ih =>
    intro hE hv
    have hE' : ∀ e, Vis.pkt e ∈ h → FitP P e := fun e he => hE e (List.mem_cons_of_mem _ he)
    cases v with
    | req n r => exact ih hE' hv
    | rep n m => exact ih hE' hv
    | cfg => exact ih hE' hv
    | pkt e =>
      have hf := hE e List.mem_cons_self
      cases e with
      | leave q => exact ih hE' hv
      | enter q port =>
        simp only [value] at hv
        split at hv
        · cases hv
        · exact ih hE' hv
      | upd q i b' =>
        simp only [value] at hv
        split at hv
        · cases hv; exact hf.2.2.2
        · exact ih hE' hv
      | ctr q v' =>
        simp only [value] at hv
        split at hv
        · cases hv; simp [bytes4]
        · exact ih hE' hv

theorem report_fits {P : Program} (ok : P.Ok) {e : Pkt} (hf : FitP P e) : FitsMsg (report e) := by
  obtain ⟨h1, h2, h3⟩ := hf
  cases e with
  | enter p port => exact ⟨h1, h2, h3⟩
  | leave p => trivial
  | upd p id b =>
    obtain ⟨⟨f, hf⟩, hb⟩ := h3
    have := named_lt ok hf
    exact ⟨h1, h2, by omega, by omega⟩
  | ctr p v => exact ⟨h1, h2, by unfold ctrField; omega, by simp [bytes4]⟩

theorem answer_fits {P : Program} (ok : P.Ok) {u0 : List UVis} {c : Cmd} {r : Req} {h : List Vis} (hE : Env P h)
    (hq : Asked P u0 c r) {m : Msg} (hm : answer h r = some m) : FitsMsg m := by
  have hcode : ∀ b, FitsMsg (Bm.Debugger.Spec.code b) := by
    intro b; cases b <;> simp [Bm.Debugger.Spec.code, FitsMsg]
  cases c <;> simp only [Asked] at hq
  case reset => subst hq; cases hm; simp [FitsMsg]
  case setWp f => obtain ⟨id, -, rfl⟩ := hq; cases hm; simp [FitsMsg]
  case unsetWp f => obtain ⟨id, -, -, rfl⟩ := hq; cases hm; exact hcode _
  case brk t o => obtain ⟨-, -, rfl⟩ := hq; cases hm; simp [FitsMsg]
  case print p f =>
    obtain ⟨q, id, -, hN, rfl, h1, h2⟩ := hq
    have := named_lt ok hN
    simp only [answer, Option.some.injEq] at hm
    subst hm
    split
    · split
      · rename_i b hb
        have := value_len hE.ev hb
        exact ⟨h1, h2, by omega, by omega⟩
      · simp [FitsMsg]
    · simp [FitsMsg]
  case bt p =>
    obtain ⟨q, -, rfl, h1, h2⟩ := hq
    simp only [answer, Option.some.injEq] at hm
    subst hm
    split
    · refine ⟨h1, h2, ?_, ?_⟩
      · have := hE.depth q; omega
      · intro v hv
        obtain ⟨t, o, hp⟩ := hE.known q v hv
        have := place_lt ok hp
        omega
    · simp [FitsMsg]
  case breakIn => subst hq; cases hm; simp [FitsMsg]
  case removeIn => obtain ⟨rfl, -⟩ := hq; cases hm; exact hcode _
  case stopIn => subst hq; cases hm; simp [FitsMsg]
  case resumeIn => obtain ⟨rfl, -⟩ := hq; cases hm; exact hcode _

/-- Right after the start. -/
theorem att_like {P : Program} : ∀ {u : List UVis}, AttU u → (∀ id, ¬ Watched P id u) ∧ (∀ v, ¬ BreakAt P v u) ∧
    (∀ p, ¬ Skipped p u) ∧ current u = none ∧ ¬ Stale u ∧ ¬ BreaksIn u ∧ ¬ StopsIn u := by
  intro u
  induction u with
  | nil => intro h; exact h.elim
  | cons v u ih =>
    intro h
    cases v with
    | up => exact ⟨fun _ h => h, fun _ h => h, fun _ h => h, rfl, fun h => h, fun h => h, fun h => h⟩
    | pkt e => exact ih h
    | cmd c => exact h.elim
    | out o => exact h.elim
    | intr => exact h.elim

/-- The commands other than `continue` and `next`, answered. -/
theorem reply_asked {P : Program} (ok : P.Ok) {t : Tool} {c : Cmd} {r : Req} {n : Nat} {h0 : List Vis} {u0 : List UVis}
    (hT : TU P t u0) (hH : HU P h0 u0) (hE : Env P h0) (hsame : pk h0 = pkts u0) (ha : attached h0 = true)
    (hq : Asked P u0 c r) {m : Msg} (hm : answer h0 r = some m) :
    ∃ t' o, reply P t c m = .say t' o ∧ t'.reqId = t.reqId ∧ calm o = true ∧ o ≠ .bye ∧ TU P t' (.out o :: .cmd c :: u0) ∧
      HU P (.req n r :: h0) (.out o :: .cmd c :: u0) ∧ Answer P u0 c o ∧ attached (.req n r :: h0) = true := by
  have hctr : ∀ {f id}, Named P f id → id ≠ ctrField := by
    intro f id hN; have := named_lt ok hN; unfold ctrField; omega
  cases c <;> simp only [Asked] at hq
  case reset =>
    subst hq; cases hm
    refine ⟨_, _, rfl, rfl, rfl, by simp, ?_, ?_, rfl, ha⟩
    · exact ⟨fun _ => by simp [Tool.reset, Watched], fun _ => by simp [Tool.reset, BreakAt],
        fun _ => by simp [Tool.reset, skipped, Skipped], rfl, fun _ h => (by cases h), by simp [Tool.reset, Stale],
        fun h => h.elim, fun h => h.elim, fun h => h.elim⟩
    · exact ⟨fun _ _ => by simp [watching, Bm.Debugger.Spec.clears, Watched], fun _ h => h.elim,
        by simp [breaksIn, Bm.Debugger.Spec.clears, BreaksIn], by simp [stopsIn, Bm.Debugger.Spec.clears, StopsIn],
        by simp [chosen, Bm.Debugger.Spec.clears]⟩
  case setWp f =>
    obtain ⟨id, hN, rfl⟩ := hq; cases hm
    refine ⟨{ t with wps := add id t.wps }, .done, by simp only [reply, (fieldIdFrom_iff ok f id).mpr hN], rfl, rfl, by simp, ?_, ?_,
      .inl ⟨⟨id, hN⟩, rfl⟩, ha⟩
    · refine ⟨?_, hT.bps, hT.sk, hT.cur, hT.cb, hT.fl, hT.br, hT.st, hT.att⟩
      intro w
      simp only [mem_add, hT.wps]
      exact or_congr (named_iff ok hN w).symm Iff.rfl
    · refine ⟨?_, ?_, ?_, ?_, ?_⟩
      · intro w hw
        simp only [watching, Bool.or_eq_true, decide_eq_true_eq, hH.w1 w hw]
        exact or_congr (by rw [named_iff ok hN w, eq_comm]) Iff.rfl
      · intro v hv
        simp only [watching, hH.w2 v hv, Bool.or_true]
      · simpa [breaksIn, BreaksIn, Bm.Debugger.Spec.clears] using hH.b1
      · simpa [stopsIn, StopsIn, Bm.Debugger.Spec.clears] using hH.s1
      · simpa [chosen, Bm.Debugger.Spec.clears] using hH.ch
  case unsetWp f =>
    obtain ⟨id, hN, hW, rfl⟩ := hq
    have hwt := (hH.w1 id (hctr hN)).mpr hW
    simp only [answer, hwt, Bm.Debugger.Spec.code, if_true, Option.some.injEq] at hm
    subst hm
    refine ⟨{ t with wps := del id t.wps }, .done, by simp only [reply, (fieldIdFrom_iff ok f id).mpr hN], rfl, rfl, by simp, ?_, ?_,
      .inl ⟨⟨id, hN, hW⟩, rfl⟩, ha⟩
    · refine ⟨?_, hT.bps, hT.sk, hT.cur, hT.cb, hT.fl, hT.br, hT.st, hT.att⟩
      intro w
      simp only [mem_del, hT.wps]
      exact and_congr (not_congr (named_iff ok hN w).symm) Iff.rfl
    · refine ⟨?_, ?_, ?_, ?_, ?_⟩
      · intro w hw
        simp only [watching, Bool.and_eq_true, Bool.not_eq_true', decide_eq_false_iff_not, hH.w1 w hw]
        exact and_congr (not_congr (by rw [named_iff ok hN w, eq_comm])) Iff.rfl
      · intro v hv
        simp only [watching, hH.w2 v hv, Bool.and_true, Bool.not_eq_true', decide_eq_false_iff_not]
        exact hctr hN
      · simpa [breaksIn, BreaksIn, Bm.Debugger.Spec.clears] using hH.b1
      · simpa [stopsIn, StopsIn, Bm.Debugger.Spec.clears] using hH.s1
      · simpa [chosen, Bm.Debugger.Spec.clears] using hH.ch
  case brk ty o =>
    obtain ⟨⟨v, hN⟩, hno, rfl⟩ := hq; cases hm
    refine ⟨{ t with bps := add v t.bps }, .done, by simp only [reply, (lookupCtr_iff ok ty o v).mpr hN], rfl, rfl, by simp, ?_, ?_,
      .inl ⟨⟨v, hN⟩, rfl⟩, ha⟩
    · refine ⟨hT.wps, ?_, hT.sk, hT.cur, hT.cb, hT.fl, hT.br, hT.st, hT.att⟩
      intro w
      simp only [mem_add, hT.bps]
      exact or_congr (placed_iff ok hN w).symm Iff.rfl
    · refine ⟨?_, ?_, ?_, ?_, ?_⟩
      · intro w hw
        simp only [watching, decide_eq_false (Ne.symm hw), Bool.false_or, hH.w1 w hw]
        exact Iff.rfl
      · intro _ _
        simp only [watching, decide_true, Bool.true_or]
      · simpa [breaksIn, BreaksIn, Bm.Debugger.Spec.clears] using hH.b1
      · simpa [stopsIn, StopsIn, Bm.Debugger.Spec.clears] using hH.s1
      · simpa [chosen, Bm.Debugger.Spec.clears] using hH.ch
  case print p f =>
    obtain ⟨q, id, hs, hN, rfl, -, -⟩ := hq
    have hH' : ∀ o, HU P (.req n (.getValue q id) :: h0) (.out o :: .cmd (.print p f) :: u0) := fun o =>
      ⟨by simpa [watching, Watched, BreakAt, Bm.Debugger.Spec.clears] using hH.w1, by simpa [watching, Watched, BreakAt, Bm.Debugger.Spec.clears] using hH.w2,
        by simpa [breaksIn, BreaksIn, Bm.Debugger.Spec.clears] using hH.b1, by simpa [stopsIn, StopsIn, Bm.Debugger.Spec.clears] using hH.s1,
        by simpa [chosen, Bm.Debugger.Spec.clears] using hH.ch⟩
    simp only [answer, Option.some.injEq] at hm
    subst hm
    rw [← inside_pk, ← value_pk, hsame]
    cases hin : inside q (pkts u0) with
    | false =>
      exact ⟨t, .gone, rfl, rfl, rfl, by simp, (hT.cmd rfl).out rfl, hH' _, .inr ⟨q, id, hs, hN, .inl ⟨hin, rfl⟩⟩, ha⟩
    | true =>
      cases hv : value q id (pkts u0) with
      | none =>
        exact ⟨t, .noValue, rfl, rfl, rfl, by simp, (hT.cmd rfl).out rfl, hH' _, .inr ⟨q, id, hs, hN, .inr (.inl ⟨hin, hv, rfl⟩)⟩, ha⟩
      | some b =>
        exact ⟨t, .value b (bytesInt b), rfl, rfl, rfl, by simp, (hT.cmd rfl).out rfl, hH' _,
          .inr ⟨q, id, hs, hN, .inr (.inr ⟨hin, b, hv, by rw [bytesInt_eq]⟩)⟩, ha⟩
  case bt p =>
    obtain ⟨q, hs, rfl, -, -⟩ := hq
    have hH' : ∀ o, HU P (.req n (.getBacktrace q) :: h0) (.out o :: .cmd (.bt p) :: u0) := fun o =>
      ⟨by simpa [watching, Watched, BreakAt, Bm.Debugger.Spec.clears] using hH.w1, by simpa [watching, Watched, BreakAt, Bm.Debugger.Spec.clears] using hH.w2,
        by simpa [breaksIn, BreaksIn, Bm.Debugger.Spec.clears] using hH.b1, by simpa [stopsIn, StopsIn, Bm.Debugger.Spec.clears] using hH.s1,
        by simpa [chosen, Bm.Debugger.Spec.clears] using hH.ch⟩
    have hk := hE.known q
    simp only [answer, Option.some.injEq] at hm
    subst hm
    rw [← places_pk, hsame] at hk
    rw [← inside_pk, ← places_pk, hsame]
    cases hin : inside q (pkts u0) with
    | false =>
      exact ⟨t, .gone, rfl, rfl, rfl, by simp, (hT.cmd rfl).out rfl, hH' _, .inr ⟨q, hs, .inl ⟨hin, rfl⟩⟩, ha⟩
    | true =>
      obtain ⟨l, hl, hf⟩ := mapM_some (f := resolve P) (l := places q (pkts u0)) (by
        intro v hv
        obtain ⟨a, b, hab⟩ := hk v hv
        exact ⟨(a, b), (resolve_place ok ⟨a, b, hab⟩).mpr hab⟩)
      refine ⟨t, .trace l, ?_, rfl, rfl, by simp, (hT.cmd rfl).out rfl, hH' _, .inr ⟨q, hs, .inr ⟨hin, l, rfl, ?_⟩⟩, ha⟩
      · simp only [reply, if_true, hl]
      · clear hl
        revert hk
        generalize places q (pkts u0) = pl at hf
        intro hk
        revert hk
        induction hf with
        | nil => intro _; exact .nil
        | cons h1 _ ih =>
          intro hk
          exact .cons ((resolve_place ok (hk _ List.mem_cons_self)).mp h1) (ih fun v hv => hk v (List.mem_cons_of_mem _ hv))
  case breakIn =>
    subst hq; cases hm
    refine ⟨{ t with brk := some true }, .done, rfl, rfl, rfl, by simp, ?_, ?_, rfl, ha⟩
    · exact ⟨hT.wps, hT.bps, hT.sk, hT.cur, hT.cb, hT.fl, fun _ => rfl, hT.st, hT.att⟩
    · exact ⟨by simpa [watching, Watched, BreakAt, Bm.Debugger.Spec.clears] using hH.w1, by simpa [watching, Watched, BreakAt, Bm.Debugger.Spec.clears] using hH.w2,
        by simp [breaksIn, BreaksIn], by simpa [stopsIn, StopsIn, Bm.Debugger.Spec.clears] using hH.s1,
        by simpa [chosen, Bm.Debugger.Spec.clears] using hH.ch⟩
  case removeIn =>
    obtain ⟨rfl, hb⟩ := hq
    simp only [answer, hH.b1.mpr hb, Bm.Debugger.Spec.code, if_true, Option.some.injEq] at hm
    subst hm
    refine ⟨{ t with brk := some false }, .done, rfl, rfl, rfl, by simp, ?_, ?_, rfl, ha⟩
    · exact ⟨hT.wps, hT.bps, hT.sk, hT.cur, hT.cb, hT.fl, fun h => h.elim, hT.st, hT.att⟩
    · exact ⟨by simpa [watching, Watched, BreakAt, Bm.Debugger.Spec.clears] using hH.w1, by simpa [watching, Watched, BreakAt, Bm.Debugger.Spec.clears] using hH.w2,
        by simp [breaksIn, BreaksIn], by simpa [stopsIn, StopsIn, Bm.Debugger.Spec.clears] using hH.s1,
        by simpa [chosen, Bm.Debugger.Spec.clears] using hH.ch⟩
  case stopIn =>
    subst hq; cases hm
    refine ⟨{ t with stp := some true }, .done, rfl, rfl, rfl, by simp, ?_, ?_, rfl, ha⟩
    · exact ⟨hT.wps, hT.bps, hT.sk, hT.cur, hT.cb, hT.fl, hT.br, fun _ => rfl, hT.att⟩
    · exact ⟨by simpa [watching, Watched, BreakAt, Bm.Debugger.Spec.clears] using hH.w1, by simpa [watching, Watched, BreakAt, Bm.Debugger.Spec.clears] using hH.w2,
        by simpa [breaksIn, BreaksIn, Bm.Debugger.Spec.clears] using hH.b1, by simp [stopsIn, StopsIn],
        by simpa [chosen, Bm.Debugger.Spec.clears] using hH.ch⟩
  case resumeIn =>
    obtain ⟨rfl, hb⟩ := hq
    simp only [answer, hH.s1.mpr hb, Bm.Debugger.Spec.code, if_true, Option.some.injEq] at hm
    subst hm
    refine ⟨{ t with stp := some false }, .done, rfl, rfl, rfl, by simp, ?_, ?_, rfl, ha⟩
    · exact ⟨hT.wps, hT.bps, hT.sk, hT.cur, hT.cb, hT.fl, hT.br, fun h => h.elim, hT.att⟩
    · exact ⟨by simpa [watching, Watched, BreakAt, Bm.Debugger.Spec.clears] using hH.w1, by simpa [watching, Watched, BreakAt, Bm.Debugger.Spec.clears] using hH.w2,
        by simpa [breaksIn, BreaksIn, Bm.Debugger.Spec.clears] using hH.b1, by simp [stopsIn, StopsIn],
        by simpa [chosen, Bm.Debugger.Spec.clears] using hH.ch⟩

/-- What `continue` and `next` do once the program has stopped. -/
theorem reply_stop {P : Program} (ok : P.Ok) {t : Tool} {c : Cmd} {h1 : List Vis} {u u1 : List UVis} {e : Pkt} {n : Nat}
    {h0 : List Vis} (hg : goes c = true) (hT : TU P t u) (hH : HU P (.pkt e :: h1) u) (hE : Env P (.pkt e :: h1))
    (hp : pend u = some c) (hq : pending (.pkt e :: h1) = some (n, goReq c, h0)) (hst : strip u = .pkt e :: u1)
    (hs : Bm.Debugger.Spec.Stops h1 e) :
    (reply P t c (report e) = .again t ∧ ∀ e', ¬ Stop P u e') ∨
    ∃ sh, reply P t c (report e) = .say { t with current := some e.pid } (.event e.pid sh) ∧ Stop P u e ∧ Tells P e sh := by
  obtain ⟨isn, hr, hisn⟩ : ∃ isn, reply P t c (report e) = goOn P t isn (report e) ∧ (isn = true ↔ c = .next) := by
    cases c <;> first | (cases hg; done) | exact ⟨false, rfl, by simp⟩ | exact ⟨true, rfl, by simp⟩
  rw [hr]
  have haw : Bm.Debugger.Spec.AwaitsNext h1 → isn = true := by
    rintro ⟨n', h0', hx⟩
    have hx' : pending h1 = some (n, goReq c, h0) := hq
    rw [hx'] at hx
    rw [hisn]
    cases c <;> first | (cases hg; done) | (cases hx; done) | rfl
  have hpn : isn = true ↔ pend u = some .next := by rw [hisn, hp, Option.some.injEq]
  have hsk := hT.sk e.pid
  have hskip : skipped t e.pid = true → ∀ e', ¬ Stop P u e' := by
    intro hx e' he'
    rw [stop_strip hst] at he'
    have hw := he'.2
    have hx' := hsk.mp hx
    cases e <;> first | exact hw | exact hw.1 hx'
  have hstop : Wants P u e → Stop P u e := fun hw => (stop_strip hst e).mpr ⟨rfl, hw⟩
  have hfit := hE.ev e List.mem_cons_self
  have hint := hs.2
  cases e with
  | leave p => exact hint.elim
  | enter p port =>
    simp only [report, goOn]
    by_cases hx : skipped t p = true
    · rw [if_pos hx]; exact .inl ⟨rfl, hskip hx⟩
    · rw [if_neg hx]
      refine .inr ⟨_, rfl, hstop ⟨fun h => hx (hsk.mpr h), ?_⟩, rfl⟩
      rcases hint with hi | hi
      · exact .inl (hpn.mp (haw hi))
      · exact .inr (hH.b1.mp hi)
  | upd p id b =>
    simp only [report, goOn]
    obtain ⟨⟨f, hN⟩, -⟩ := hfit.2.2
    have hlt := named_lt ok hN
    by_cases hx : skipped t p = true
    · rw [if_pos hx]; exact .inl ⟨rfl, hskip hx⟩
    · rw [if_neg hx, if_neg (by rintro ⟨-, h2, -⟩; omega)]
      have hw : pend u = some .next ∨ Watched P id u := by
        rcases hint with hi | hi
        · exact .inl (hpn.mp (haw hi))
        · exact .inr ((hH.w1 id (by unfold ctrField; omega)).mp hi)
      have hst' := hstop ⟨fun h => hx (hsk.mpr h), hw⟩
      have c1 : condField = 0xfffffffffffffffe := by decide
      have c2 : actionField = 0xfffffffffffffffd := by decide
      unfold shown
      rw [if_neg (by omega)]
      by_cases h1 : id = 0xfffffffffffffffe
      · rw [if_pos h1]
        refine .inr ⟨_, rfl, hst', .inl ⟨by rw [c1]; exact h1, ?_⟩⟩
        rw [bytesInt_eq]
        congr 1
        by_cases hz : bigEnd b = 0 <;> simp [hz]
      · rw [if_neg h1]
        by_cases h2 : id = 0xfffffffffffffffd
        · rw [if_pos h2]
          exact .inr ⟨_, rfl, hst', .inr (.inl ⟨by rw [c2]; exact h2, rfl⟩)⟩
        · rw [if_neg h2, if_pos (by
            rcases hw with hw | hw
            · exact .inl (hpn.mpr hw)
            · exact .inr ((hT.wps id).mpr hw))]
          rw [(fieldName_iff ok (by rw [c1]; exact h1) (by rw [c2]; exact h2) f).mpr hN]
          refine .inr ⟨_, rfl, hst', .inr (.inr ⟨by rw [c1]; exact h1, by rw [c2]; exact h2, f, hN, ?_⟩)⟩
          rw [bytesInt_eq]
  | ctr p v =>
    simp only [report, goOn]
    obtain ⟨⟨ty, o, w, hP, hv⟩, hlt⟩ := hfit.2.2
    have hw27 := place_lt ok hP
    have cf : (ctrField = 0xffffffffffffffff) = True := by simp [ctrField]
    rw [bytesInt_eq, bigEnd_bytes4 hlt]
    by_cases hx : skipped t p = true
    · rw [if_pos hx]; exact .inl ⟨rfl, hskip hx⟩
    · rw [if_neg hx]
      by_cases hb : isn = false ∧ ctrField = 0xffffffffffffffff ∧ v ∉ t.bps
      · rw [if_pos hb]
        refine .inl ⟨rfl, ?_⟩
        intro e' he'
        rw [stop_strip hst] at he'
        rcases he'.2.2 with h2 | h2
        · rw [hpn.mpr h2] at hb; cases hb.1
        · exact hb.2.2 ((hT.bps v).mpr h2)
      · rw [if_neg hb]
        have hw : pend u = some .next ∨ BreakAt P v u := by
          cases hi : isn with
          | true => exact .inl (hpn.mp hi)
          | false =>
            right
            refine (hT.bps v).mp ?_
            by_cases hm : v ∈ t.bps
            · exact hm
            · exact absurd ⟨hi, cf.mpr trivial, hm⟩ hb
        have hst' := hstop ⟨fun h => hx (hsk.mpr h), hw⟩
        unfold shown
        rw [if_pos (cf.mpr trivial), bytesInt_eq, bigEnd_bytes4 hlt, (resolve_iff ok hlt ty o).mpr ⟨w, hP, hv⟩]
        simp only [Option.map_some]
        rcases hv with rfl | rfl
        · have hz : 0x80 &&& (v >>> 24) = 0 := by
            have h7 : v >>> 24 < 8 := by rw [Nat.shiftRight_eq_div_pow]; omega
            generalize v >>> 24 = y at h7
            rcases y with _ | _ | _ | _ | _ | _ | _ | _ | y <;> first | rfl | omega
          rw [if_neg (by rw [hz]; simp)]
          exact .inr ⟨_, rfl, hst', ty, o, v, hP, .inl ⟨rfl, rfl⟩⟩
        · have hz : 0x80 &&& ((w + 2 ^ 31) >>> 24) ≠ 0 := by
            have h7 : ∃ y, y < 8 ∧ (w + 2 ^ 31) >>> 24 = y + 128 := by
              refine ⟨w / 2 ^ 24, by omega, ?_⟩
              rw [Nat.shiftRight_eq_div_pow]; omega
            obtain ⟨y, hy, he⟩ := h7
            rw [he]
            rcases y with _ | _ | _ | _ | _ | _ | _ | _ | y <;> first | decide | omega
          rw [if_pos hz]
          exact .inr ⟨_, rfl, hst', ty, o, w, hP, .inr ⟨rfl, rfl⟩⟩

theorem rx_step {P : Program} (ok : P.Ok) {s : Debugger.State} {m : Mode} {h : List Vis} {u : List UVis} (i : SI P s m h u)
    {x : Debugger.State × Mode × List UVis} (hs : step P s m .rx = some x) :
    ∃ h', SI P x.1 x.2.1 h' (x.2.2 ++ u) := by
  cases m with
  | off => cases hs
  | prompt t => cases hs
  | sending t c b => cases hs
  | dead => cases hs
  | busy t c b =>
  obtain ⟨h1, h2, h4, n, r, h5, h6, hb⟩ := i.mi
  simp only [step] at hs
  cases hrep : s.reply with
  | none => rw [hrep] at hs; cases hs
  | some km =>
  obtain ⟨k, m⟩ := km
  have hph := (Debugger.run_inv i.run).c.ph
  unfold Debugger.PhaseOk at hph
  rcases hb with ⟨h3, -, -⟩ | ⟨h3, h0, h7, hb⟩
  · rw [h3] at hph
    simp only [hrep] at hph
    cases hph.2.2.2
  rw [h3] at hph
  simp only [hrep, h7] at hph
  obtain ⟨n', r', h0', hnr, hk, -, -, hm⟩ := hph
  cases hnr
  have hk64 : k < 2 ^ 64 := by
    rw [hk]; unfold Bm.Debugger.Spec.num; split <;> omega
  have hE0 : h = .req n r :: h0 → Env P h0 ∧ pk h0 = pkts u := by
    rintro rfl
    exact ⟨⟨fun e he => i.env.ev e (List.mem_cons_of_mem _ he), i.env.depth, i.env.known⟩, i.same⟩
  have hfm : FitsMsg m := by
    rcases hm with hm | ⟨-, -, ⟨e, hh1, hh, -, rfl⟩ | ⟨rfl, -⟩⟩
    · rcases hb with ⟨rfl, rfl, -⟩ | ⟨rfl, rfl, -⟩ | ⟨hg, rfl, -⟩ | ⟨-, -, -, hh, -, u0, -, -, -, hq⟩
      · cases hm; simp only [FitsMsg, Bm.Debugger.Spec.code]; split <;> omega
      · cases hm; simp only [FitsMsg, Bm.Debugger.Spec.code]; split <;> omega
      · cases c <;> first | (cases hg; done) | (cases hm; done)
      · exact answer_fits ok (hE0 hh).1 hq hm
    · exact report_fits ok (i.env.ev e (by rw [hh]; exact List.mem_cons_self))
    · trivial
  rw [hrep] at hs
  simp only [extract_encode hk64 hfm] at hs
  obtain ⟨s', rfl, hd, hr⟩ := sw_ok i (by
    intro w hw
    simp only [Debugger.vis, hrep, Option.map_some, Option.some.injEq] at hw
    subst hw; trivial) hs
  have hhist : Debugger.hist s .send h = .rep k m :: h := by
    simp only [Debugger.hist, Debugger.vis, hrep, Option.map_some]
  rw [hhist] at hr
  have hps : s'.phase = .idle := by
    simp only [Debugger.step, h3, hrep] at hd
    cases hd; rfl
  refine ⟨.rep k m :: h, ?_⟩
  have hEr : Env P (.rep k m :: h) := i.env.same (by intro e; simp)
  have saying : ∀ {t' o}, reply P t c m = .say t' o → t'.reqId = t.reqId → o ≠ .bye → attached h = true →
      TU P t' (.out o :: u) → HU P h (.out o :: u) → Good P Stale (.out o :: u) →
      SI P s' ((reply P t c m).mode c b) (.rep k m :: h) ((reply P t c m).out ++ u) := by
    intro t' o he h8 h9 h10 h11 h12 h13
    rw [he]
    refine ⟨hr, i.same, hEr, ⟨?_, rfl, h10, hps, ?_, h11, h12.rep _ _⟩, h13⟩
    · cases o <;> first | exact absurd rfl h9 | exact h1
    · rw [h8]; exact Nat.le_succ_of_le h4
  rcases hb with ⟨rfl, rfl, hh, ha, hu, ht⟩ | ⟨rfl, rfl, ha⟩ | ⟨hg, rfl, ha, hT, hH, htop⟩ | ⟨hg, hc1, hc2, hh, ha, u0, hu, hT, hH, hq⟩
  · -- attach
    have hm' : m = .status 0 := by
      rcases hm with hm | ⟨hm | hm, -⟩
      · simp only [answer, ha, Bm.Debugger.Spec.code, Option.some.injEq] at hm
        exact hm.symm
      · cases hm
      · cases hm
    subst hm'
    obtain ⟨a1, a2, a3, a4, a5, a6, a7⟩ := att_like (P := P) hu
    refine saying (t' := { t with attached := true }) (o := .done) rfl rfl (by simp) (by rw [hh]; rfl) ?_ ?_ (.attached i.good h2)
    · subst ht
      refine ⟨fun id => ?_, fun v => ?_, fun p => ?_, a4.symm, fun q hq => (by cases hq), ?_, fun hx => absurd hx a6, fun hx => absurd hx a7,
        fun _ => rfl⟩
      · exact ⟨fun hx => (by cases hx), fun hx => absurd hx (a1 id)⟩
      · exact ⟨fun hx => (by cases hx), fun hx => absurd hx (a2 v)⟩
      · exact ⟨fun hx => (by cases hx), fun hx => absurd hx (a3 p)⟩
      · exact ⟨fun hx => (by cases hx), fun hx => absurd hx a5⟩
    · subst hh
      refine ⟨fun id _ => ?_, fun v hx => absurd hx (a2 v), ?_, ?_, ?_⟩
      · have e : watching id (.req n .attach :: h0) = false := by simp [watching, Bm.Debugger.Spec.clears, ha]
        rw [e]
        exact ⟨fun hx => (by cases hx), fun hx => absurd hx (a1 id)⟩
      · have e : breaksIn (.req n .attach :: h0) = false := by simp [breaksIn, Bm.Debugger.Spec.clears, ha]
        rw [e]
        exact ⟨fun hx => (by cases hx), fun hx => absurd hx a6⟩
      · have e : stopsIn (.req n .attach :: h0) = false := by simp [stopsIn, Bm.Debugger.Spec.clears, ha]
        rw [e]
        exact ⟨fun hx => (by cases hx), fun hx => absurd hx a7⟩
      · simp [chosen, Bm.Debugger.Spec.clears, ha]
  · -- eof
    have hm' : ∃ q, m = .status q := by
      rcases hm with hm | ⟨hm | hm, -⟩
      · simp only [answer, Bm.Debugger.Spec.code, Option.some.injEq] at hm
        exact ⟨_, hm.symm⟩
      · cases hm
      · cases hm
    obtain ⟨q, rfl⟩ := hm'
    exact ⟨hr, i.same, hEr, ⟨rfl, ha, hps⟩, .bye i.good h2⟩
  · -- continue, next
    rcases hm with hm | ⟨-, -, ⟨e, hh1, hh, hst, rfl⟩ | ⟨rfl, hns⟩⟩
    · cases c <;> first | (cases hg; done) | (cases hm; done)
    · rcases htop with ⟨e0, hh1', u1, hh', hsu⟩ | ⟨htop, -⟩
      · rw [hh] at hh'; cases hh'
        subst hh
        rcases reply_stop ok hg hT hH i.env h2 h7 hsu hst with ⟨he, hno⟩ | ⟨sh, he, hS, htell⟩
        · rw [he]
          exact ⟨hr, i.same, hEr, ⟨h1, h2, hps, h4, n, _, h5, h6, .inr (.inr (.inl ⟨hg, rfl, ha, hT, hH.rep _ _, hno⟩))⟩, i.good⟩
        · have hf := i.env.ev e List.mem_cons_self
          exact saying he rfl (by simp) ha (hT.event ⟨hf.1, hf.2.1⟩ sh) (hH.out _) (.event i.good h2 hg hS htell)
      · exact absurd hh (htop _ _)
    · have hno := no_stop ok hH i.env h2 h7 hg hT hns htop
      have hre : reply P t c .keepAlive = if t.wantPrompt then .say { t with wantPrompt := false } .stopped else .again t := by
        cases c <;> first | (cases hg; done) | rfl
      by_cases hw : t.wantPrompt = true
      · rw [if_pos hw] at hre
        exact saying hre rfl (by simp) ha hT.stopped (hH.out _) (.stopped i.good h2 hg hno (hT.fl.mp hw))
      · rw [if_neg hw] at hre
        rw [hre]
        exact ⟨hr, i.same, hEr, ⟨h1, h2, hps, h4, n, _, h5, h6, .inr (.inr (.inl ⟨hg, rfl, ha, hT, hH.rep _ _, hno⟩))⟩, i.good⟩
  · -- other commands
    have hm' : answer h0 r = some m := by
      rcases hm with hm | ⟨hm | hm, -⟩
      · exact hm
      · subst hm; cases c <;> simp [Asked] at hq
      · subst hm; cases c <;> simp [Asked] at hq
    obtain ⟨he0, hsame⟩ := hE0 hh
    subst hu
    obtain ⟨t', o, he, e1, e2, e3, e4, e5, e6, e7⟩ := reply_asked (n := n) ok hT hH he0 hsame ha hq hm'
    subst hh
    exact saying he e1 e3 e7 e4 e5 (.answer i.good hg hc1 hc2 e6)

end Bm.P4dbg
