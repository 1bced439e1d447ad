import Verif.Lemmas.CliCmd
import Verif.Lemmas.Thrift
import Verif.Model.ParseVSet

/-!
# Lemmas about the command line tool: what requests do at the switch
-/

namespace Bm.Cli
open Bm.Spec Bm.Cli.Spec Bm.Thrift Bm.Thrift.Spec

theorem holds_mod {w : Nat} {v : Int} {bs : Bytes} (h : Holds w v bs) (hf : Fits w v) :
    bytesNat bs % 2 ^ w = v.toNat ∧ (bytesNat bs = v.toNat) := by
  have h1 : bytesNat bs = v.toNat := by have := h.2; omega
  refine ⟨?_, h1⟩
  rw [h1]
  apply Nat.mod_eq_of_lt
  have h2 := hf.2
  have h3 := hf.1
  have : (v.toNat : Int) < ((2 ^ w : Nat) : Int) := by push_cast; omega
  exact_mod_cast this

/-- A match parameter that carries a sane field is accepted, and means what the field means. -/
theorem carried_means {v6 : V6} {f : KeyF} {t : Text} {a : Spec.Field} {p : TParam} (hm : f.smask = none)
    (hv : f.mtype = .valid → f.nbits = 8) (hl : f.mtype = .lpm → 8 ∣ f.nbits) (ht : FieldText v6 (f.mtype, f.nbits) t a)
    (hs : a.Sane f.nbits) (hlen : ∀ v n, a = .lpm v n → 0 ≤ n ∧ n ≤ (f.nbits : Int)) (hc : Carries f.nbits a p) :
    ParamOk f (TParam.means p) ∧ ∀ x, FieldMatches paddedWidth f (TParam.means p) x ↔ a.Meant f.nbits x := by
  obtain ⟨mt, nb, sm⟩ := f
  simp only at hm hv hl ht hs hlen hc
  subst hm
  cases ht with
  | exact h =>
    cases p with
    | exact k =>
      obtain ⟨m1, m2⟩ := holds_mod hc hs
      refine ⟨⟨rfl, hc.1, trivial⟩, fun x => ?_⟩
      have := hs.1
      simp only [FieldMatches, underMask, paramValue, TParam.means, m1, Field.Meant]
      omega
    | _ => exact hc.elim
  | lpm h h' =>
    cases p with
    | lpm k n =>
      obtain ⟨m1, m2⟩ := holds_mod hc.1 hs.1
      have hn := hlen _ _ rfl
      rw [← hc.2] at hn
      refine ⟨⟨rfl, hc.1.1, hn⟩, fun x => ?_⟩
      have hw : paddedWidth nb = nb := by
        have := hl rfl
        unfold paddedWidth
        omega
      simp only [FieldMatches, underMask, paramValue, TParam.means, m1, Field.Meant, PrefixAgrees, hw, hc.2]
    | _ => exact hc.elim
  | ternary h h' =>
    cases p with
    | ternary k k' =>
      obtain ⟨m1, m2⟩ := holds_mod hc.1 hs.1
      obtain ⟨n1, n2⟩ := holds_mod hc.2 hs.2
      refine ⟨⟨rfl, hc.1.1, hc.2.1⟩, fun x => ?_⟩
      simp only [FieldMatches, underMask, paramValue, TParam.means, m1, n2, Field.Meant]
    | _ => exact hc.elim
  | valid h =>
    cases p with
    | valid b =>
      have hb : nb = 8 := hv rfl
      subst hb
      have e : decide _ = b := hc
      refine ⟨⟨rfl, rfl, trivial⟩, fun x => ?_⟩
      simp only [FieldMatches, underMask, paramValue, TParam.means, Field.Meant, e]
      cases b <;> simp [bytesNat]
    | _ => exact hc.elim
  | range h h' =>
    cases p with
    | range k k' =>
      obtain ⟨m1, m2⟩ := holds_mod hc.1 hs.1
      obtain ⟨n1, n2⟩ := holds_mod hc.2 hs.2.1
      have h1 := hs.1.1
      have h2 := hs.2.1.1
      have h3 := hs.2.2
      refine ⟨⟨rfl, hc.1.1, hc.2.1, ?_⟩, fun x => ?_⟩
      · show bytesNat k ≤ bytesNat k'
        omega
      · simp only [FieldMatches, underMask, paramValue, TParam.means, m1, n2, Field.Meant]
        omega
    | _ => exact hc.elim

/-- The same for all fields of a key. -/
theorem carried_all {v6 : V6} : ∀ {fs : List KeyF} {ks : List Text} {as : List Spec.Field} {ps : List TParam},
    (∀ f ∈ fs, f.smask = none ∧ (f.mtype = .valid → f.nbits = 8) ∧ (f.mtype = .lpm → 8 ∣ f.nbits)) →
    List.Forall₂ (fun (x : (MType × Nat) × Text) a => FieldText v6 x.1 x.2 a) ((fs.map fun f => (f.mtype, f.nbits)).zip ks) as →
    ks.length = fs.length →
    (∀ x ∈ (fs.map fun f => (f.mtype, f.nbits)).zip as, Field.Sane x.1.2 x.2 ∧
      ∀ v n, x.2 = Field.lpm v n → 0 ≤ n ∧ n ≤ (x.1.2 : Int)) →
    List.Forall₂ (fun (x : (MType × Nat) × Spec.Field) p => Carries x.1.2 x.2 p) ((fs.map fun f => (f.mtype, f.nbits)).zip as) ps →
    ParamsOk fs (ps.map TParam.means) ∧
      ∀ vals, vals.length = fs.length → (AllMatch paddedWidth fs (ps.map TParam.means) vals ↔ MeantAll fs as vals)
  | [], [], as, ps, _, h, _, _, hc => by
    cases h
    cases hc
    refine ⟨⟨rfl, by intro i f p h; simp at h⟩, fun vals hv => ?_⟩
    constructor
    · intro _ i f a v h; simp at h
    · intro _ i f a v h; simp at h
  | f :: fs, k :: ks, as, ps, hw, h, hl, hs, hc => by
    rw [List.map_cons, List.zip_cons_cons] at h
    cases h with
    | cons h1 h2 =>
      next a as =>
      rw [List.map_cons, List.zip_cons_cons] at hc hs
      cases hc with
      | cons c1 c2 =>
        next p ps =>
        obtain ⟨w1, w2, w3⟩ := hw f (by simp)
        obtain ⟨g1, g2⟩ := hs _ (List.mem_cons_self ..)
        obtain ⟨q1, q2⟩ := carried_means w1 w2 w3 h1 g1 g2 c1
        obtain ⟨r1, r2⟩ := carried_all (fun g hg => hw g (by simp [hg])) h2 (by simpa using hl)
          (fun x hx => hs x (List.mem_cons_of_mem _ hx)) c2
        refine ⟨⟨by simpa using r1.1, ?_⟩, ?_⟩
        · intro i g x hg hx
          match i with
          | 0 => simp at hg hx; subst hg; subst hx; exact q1
          | i + 1 => exact r1.2 i g x (by simpa using hg) (by simpa using hx)
        · intro vals hv
          match vals, hv with
          | v :: vals, hv =>
            have hr := r2 vals (by simpa using hv)
            constructor
            · intro hA i g b x hg hb hx
              match i with
              | 0 =>
                simp at hg hb hx
                subst hg; subst hb; subst hx
                exact (q2 _).1 (hA 0 _ _ _ rfl rfl rfl)
              | i + 1 =>
                exact hr.1 (fun j g' p' v' h1 h2 h3 => hA (j + 1) g' p' v' h1 (by simpa using h2) h3) i g b x (by simpa using hg)
                  (by simpa using hb) (by simpa using hx)
            · intro hA i g b x hg hb hx
              match i with
              | 0 =>
                simp at hg hb hx
                subst hg; subst hb; subst hx
                exact (q2 _).2 (hA 0 _ _ _ rfl rfl rfl)
              | i + 1 =>
                exact hr.2 (fun j g' p' v' h1 h2 h3 => hA (j + 1) g' p' v' h1 h2 h3) i g b x (by simpa using hg)
                  (by simpa using hb) (by simpa using hx)
  | [], _ :: _, _, _, _, _, hl, _, _ => by simp at hl
  | _ :: _, [], _, _, _, _, hl, _, _ => by simp at hl

theorem carried_nums : ∀ {ws : List Nat} {vs : List Int} {bs : List Bytes}, vs.length = ws.length →
    List.Forall₂ (fun (x : Nat × Int) b => Holds x.1 x.2 b) (ws.zip vs) bs → nums bs = vs
  | [], [], _, _, h => by cases h; rfl
  | w :: ws, v :: vs, bs, hl, h => by
    rw [List.zip_cons_cons] at h
    cases h with
    | cons h1 h2 =>
      have := carried_nums (by simpa using hl) h2
      simp only [nums, List.map_cons] at this ⊢
      rw [this, h1.2]
  | [], _ :: _, _, hl, _ => by simp at hl
  | _ :: _, [], _, hl, _ => by simp at hl

theorem zip_length {α β γ : Type} {R : α × β → γ → Prop} {l : List α} {m : List β} {r : List γ}
    (h : List.Forall₂ R (l.zip m) r) (hl : m.length = l.length) : r.length = l.length := by
  have := forall2_length h
  simp at this
  omega

/-- What the request of a sane `table_add` does. -/
theorem add_effect {v6 : V6} {cfg : Cfg} {cmd : String} {args : List Text} {T : TabD} {d : Decl} {fs : List Spec.Field}
    {A : ActD} {vs : List Int} {n : Int} (hS : Says v6 cfg cmd args T (.add fs A vs n))
    (hs : (Ask.add fs A vs n).Sane T) (hl : LengthsOk T fs) (hag : Agrees cfg T d) (hd : Decl.WF d)
    (hm : ∀ f ∈ d.fs, f.smask = none ∧ (f.mtype = .lpm → 8 ∣ f.nbits)) (hk : d.fs ≠ []) (he : d.prog.entries = none)
    {call : Call} (hc : Asks T (.add fs A vs n) call) {s s' : STab} {r : Res} (st : Step d s call s' r) :
    (∃ h e, r = .handle h ∧ s.T h = none ∧ s' = { s with T := fun h' => if h' = h then some e else s.T h' } ∧
      (A.name, e.fn) ∈ d.names ∧ e.data = vs ∧ e.key.2 = n ∧
      ∀ vals, ValuesOk d.fs vals → (AllMatch paddedWidth d.fs e.key.1 vals ↔ MeantAll d.fs fs vals)) ∨
    (s' = s ∧ (Refused (.table (.table .duplicate)) r ∨ Refused (.table (.table .full)) r)) := by
  cases hS with
  | @add q a _ _ ks _ ps _ pr _ hT hA hK hD hP =>
    cases call with
    | add key an data prio now =>
      obtain ⟨c1, rfl, c2, rfl⟩ := hc
      obtain ⟨fn, f1, f2⟩ := hag.acts A hA.1 hA.2.2
      have hdl : data.length = fn.nparams := by rw [c2.1, f2]
      have hkt := hK.1
      have hcc := c1.2
      have hs1 := hs.1
      unfold SaneKey at hs1
      unfold LengthsOk at hl
      rw [hag.key] at hkt hcc hs1 hl
      have hlen : ks.length = d.fs.length := by rw [hK.2, hag.key]; simp
      obtain ⟨ok, means⟩ := carried_all (fun f hf => ⟨(hm f hf).1, (hd.fields f hf).2.2, (hm f hf).2⟩) hkt hlen
        (fun x hx => ⟨hs1 x hx, hl x hx⟩) hcc
      have hnum : nums data = vs := carried_nums (zip_length hD.1 hD.2) c2.2
      rcases st with ⟨g, g1, g2⟩ | ⟨g, -⟩
      · have hg : g = fn := by
          have := List.inj_on_of_nodup_map hd.names g1 f1 rfl
          exact congrArg Prod.snd this
        subst hg
        rw [he] at g2
        simp only [Option.isSome_none, Bool.false_eq_true, ↓reduceIte, hdl, ne_eq, not_true_eq_false] at g2
        rcases g2 with ⟨h, -⟩ | ⟨-, h, -⟩ | ⟨-, -, -, h1, h2⟩ | ⟨-, -, -, l, -, ⟨-, h1, h2⟩ | ⟨-, h, h1, h2, h3, h4, h5⟩⟩
        · exact absurd h hk
        · exact absurd ok h
        · exact .inr ⟨h1, .inl h2⟩
        · exact .inr ⟨h1, .inr h2⟩
        · refine .inl ⟨h, _, h1, h3, h5, g1, hnum, rfl, fun vals hv => means vals hv.1⟩
      · exact absurd f1 (g fn)
    | _ => exact hc.elim

/-! ## Value sets -/

theorem pvs_length {s : Text} {w : Nat} {bs : Bytes} (h : pvsValue s w = .ok bs) : bs.length = (w + 14) / 8 := by
  unfold pvsValue at h
  obtain ⟨i, -, h⟩ := bind_ok h
  obtain ⟨-, -, h⟩ := bind_ok h
  obtain ⟨l, hl, h⟩ := bind_ok h
  obtain ⟨-, rfl⟩ := pack_ok h
  rw [toBytes_length]
  rcases intToBytes_cases (u := 8) (by omega) i (w + 7) with ⟨e, -⟩ | ⟨l', L, e, -, -, h3, -, h5, -⟩
  · rw [e] at hl; cases hl
  · rw [e] at hl
    cases hl
    rw [h5]
    omega

theorem pvs_value {s : Text} {w : Nat} {v : Int} {bs : Bytes} (hs : Signed Literal s v) (h : pvsValue s w = .ok bs) :
    bytesNat bs = v.toNat := by
  unfold pvsValue at h
  obtain ⟨i, hi, h⟩ := bind_ok h
  rw [of_some (int0_iff.2 hs)] at hi
  cases hi
  obtain ⟨-, -, h⟩ := bind_ok h
  obtain ⟨l, hl, h⟩ := bind_ok h
  obtain ⟨-, rfl⟩ := pack_ok h
  rcases intToBytes_cases (u := 8) (by omega) v (w + 7) with ⟨e, -⟩ | ⟨l', L, e, -, h2, -⟩
  · rw [e] at hl; cases hl
  · rw [e] at hl
    cases hl
    exact h2

theorem pvs_ok {s : Text} {w : Nat} {v : Int} (h : Signed Literal s v) (hf : v < 2 ^ w) : ∃ bs, pvsValue s w = .ok bs := by
  have hg : v ≤ 2 ^ w - 1 := by omega
  rcases intToBytes_cases (u := 8) (by omega) v (w + 7) with ⟨_, L, h1, h2, h3⟩ | ⟨l', L, e, hb, -⟩
  · exfalso
    have h4 : 256 ^ (L - 1) = 2 ^ (8 * (L - 1)) := by rw [show 256 = 2 ^ 8 from rfl, ← Nat.pow_mul]
    have h5 : 2 ^ w ≤ 2 ^ (8 * (L - 1)) := Nat.pow_le_pow_right (by omega) (by omega)
    have h6 : 0 < 2 ^ w := Nat.pow_pos (by omega)
    have h7 : (v.toNat : Int) < ((2 ^ w : Nat) : Int) := by push_cast; omega
    have h8 : v.toNat < 2 ^ w := by exact_mod_cast h7
    omega
  · refine ⟨toBytes l', ?_⟩
    unfold pvsValue
    rw [of_some (int0_iff.2 h)]
    simp only [out_bind_ok, guard_pos hg, e, pack_of hb]

end Bm.Cli
