import Verif.Lemmas.Algo

/-!
# C111: calculations compute the algorithm the program names, with the parameters set last
-/

namespace Bm.Algo

open Bm.Algo.Spec

/-- **C111 (partial)**.  Programs whose calculations have algorithms which are built in, in any number of contexts: they are loaded;
then, whatever packets and requests come, every computation gives what the algorithm gives with the parameters set last for this
calculation (and not for another one), and every request is answered as it should be.  Nothing undefined happens.

Missing: algorithms of the catalogue and described algorithms (`C111_refuted`), and requests for names the program does not have
(`C111_refuted_name`). -/
theorem C111_partial (xx : Bytes → BitVec 64) {cfgs : List (List (Name × Name))}
    (hn : ∀ cfg ∈ cfgs, (cfg.map Prod.fst).Nodup)
    (hb : ∀ cfg ∈ cfgs, ∀ p ∈ cfg, p.2 ∈ builtIn.map Prod.fst) :
    ∃ s : Sys, cfgs.mapM load = .ok s ∧ ∀ qs, Possible (Spec.init cfgs) qs →
      ∃ s' rs, s.run xx qs = some (s', rs) ∧ Session xx (Spec.init cfgs) qs rs := by
  obtain ⟨s, hs, hi⟩ := load_ok cfgs hn hb
  exact ⟨s, hs, fun qs hq => run_ok xx qs hi hq⟩

/-- Names are used once: a program with two calculations of the same name is refused. -/
theorem C111_duplicate (n a b : Name) (l : List (Name × Name)) (ha : a ∈ builtIn.map Prod.fst) (hb : b ∈ builtIn.map Prod.fst) :
    load ((n, a) :: (n, b) :: l) = .error .duplicate := by
  have key : ∀ {a}, a ∈ builtIn.map Prod.fst → ∃ r, checkHash a = .ok r := by
    intro a ha
    obtain ⟨p, hp⟩ := lookup_of_mem ha
    obtain ⟨r, hr, _⟩ := builtIn_rel _ (mem_of_lookup hp)
    exact ⟨r, checkHash_builtIn hr⟩
  obtain ⟨r, hr⟩ := key ha
  obtain ⟨r', hr'⟩ := key hb
  simp [load, loadFrom, hr, hr', Calcs.set]

/-! ## CRCs by name -/

deriving instance DecidableEq for Crc.Config
deriving instance DecidableEq for AnyConfig

/-- The configuration of an entry. -/
def Spec.Entry.conf (e : Entry) : Option AnyConfig :=
  if e.w = 8 then some (.w8 ⟨BitVec.ofNat 8 e.poly, BitVec.ofNat 8 e.init, BitVec.ofNat 8 e.xout, e.rev, e.rev⟩)
  else if e.w = 16 then some (.w16 ⟨BitVec.ofNat 16 e.poly, BitVec.ofNat 16 e.init, BitVec.ofNat 16 e.xout, e.rev, e.rev⟩)
  else if e.w = 32 then some (.w32 ⟨BitVec.ofNat 32 e.poly, BitVec.ofNat 32 e.init, BitVec.ofNat 32 e.xout, e.rev, e.rev⟩)
  else if e.w = 64 then some (.w64 ⟨BitVec.ofNat 64 e.poly, BitVec.ofNat 64 e.init, BitVec.ofNat 64 e.xout, e.rev, e.rev⟩)
  else none

theorem catalogue_conf : ∀ e ∈ catalogue, getCopy e.name = none ∧ crcMap.lookup e.name = e.conf ∧ e.conf ≠ none := by
  have : ∀ e ∈ catalogue, registered.lookup e.name |>.isNone := by decide +kernel
  have h2 : ∀ e ∈ catalogue, crcMap.lookup e.name = e.conf ∧ e.conf ≠ none := by decide +kernel
  intro e he
  refine ⟨?_, h2 e he⟩
  have := this e he
  rw [Option.isNone_iff_eq_none] at this
  rw [getCopy, this]; rfl

/-- A raw calculation computes an algorithm, for all inputs and for ever. -/
def Computes (r : Raw) (a : Alg) : Prop :=
  ∀ (xx : Bytes → BitVec 64) (old : List Bytes) (buf : Bytes), ∃ v, r.output xx buf = some (v, r) ∧ Val xx a old buf v

theorem computes8 (c : Crc.Config 8) : ∃ r, (AnyConfig.w8 c).make = some r ∧ Computes r
    (.crc 8 c.polynomial c.initialRemainder c.finalXor c.dataReflected c.remainderReflected) := by
  refine ⟨.custom8 (Crc.Obj.new c), rfl, fun xx old buf => ?_⟩
  obtain ⟨r, h1, h2⟩ := crc_val (by decide) (by decide) xx c old buf
  exact ⟨_, by simp only [Raw.output, h1]; rfl, h2⟩

theorem computes16 (c : Crc.Config 16) : ∃ r, (AnyConfig.w16 c).make = some r ∧ Computes r
    (.crc 16 c.polynomial c.initialRemainder c.finalXor c.dataReflected c.remainderReflected) := by
  refine ⟨.custom16 (Crc.Obj.new c), rfl, fun xx old buf => ?_⟩
  obtain ⟨r, h1, h2⟩ := crc_val (by decide) (by decide) xx c old buf
  exact ⟨_, by simp only [Raw.output, h1]; rfl, h2⟩

theorem computes32 (c : Crc.Config 32) : ∃ r, (AnyConfig.w32 c).make = some r ∧ Computes r
    (.crc 32 c.polynomial c.initialRemainder c.finalXor c.dataReflected c.remainderReflected) := by
  refine ⟨.custom32 (Crc.Obj.new c), rfl, fun xx old buf => ?_⟩
  obtain ⟨r, h1, h2⟩ := crc_val (by decide) (by decide) xx c old buf
  exact ⟨_, by simp only [Raw.output, h1]; rfl, h2⟩

theorem computes64 (c : Crc.Config 64) : ∃ r, (AnyConfig.w64 c).make = some r ∧ Computes r
    (.crc 64 c.polynomial c.initialRemainder c.finalXor c.dataReflected c.remainderReflected) := by
  refine ⟨.custom64 (Crc.Obj.new c), rfl, fun xx old buf => ?_⟩
  obtain ⟨r, h1, h2⟩ := crc_val (by decide) (by decide) xx c old buf
  exact ⟨_, by simp only [Raw.output, h1]; rfl, h2⟩

/-- The name of a predefined CRC gives a calculation which computes this CRC. -/
theorem C111_catalogue : ∀ e ∈ catalogue, ∃ r, checkHash e.name = .ok r ∧ Computes r e.alg := by
  intro e he
  obtain ⟨h1, h2, h3⟩ := catalogue_conf e he
  have key : ∀ c r, e.conf = some c → c.make = some r → checkHash e.name = .ok r := by
    intro c r hc hr
    have : crcCopy e.name = some r := by rw [crcCopy, h2, hc]; exact hr
    simp only [checkHash, h1, this]
  unfold Entry.conf at h3 key
  unfold Entry.alg
  obtain ⟨n, w, p, i, x, rv, ck⟩ := e
  simp only at h3 key ⊢
  by_cases w8 : w = 8
  · subst w8
    obtain ⟨r, hr, hc⟩ := computes8 ⟨BitVec.ofNat 8 p, BitVec.ofNat 8 i, BitVec.ofNat 8 x, rv, rv⟩
    exact ⟨r, key _ r (by rw [if_pos rfl]) hr, hc⟩
  by_cases w16 : w = 16
  · subst w16
    obtain ⟨r, hr, hc⟩ := computes16 ⟨BitVec.ofNat 16 p, BitVec.ofNat 16 i, BitVec.ofNat 16 x, rv, rv⟩
    exact ⟨r, key _ r (by rw [if_neg w8, if_pos rfl]) hr, hc⟩
  by_cases w32 : w = 32
  · subst w32
    obtain ⟨r, hr, hc⟩ := computes32 ⟨BitVec.ofNat 32 p, BitVec.ofNat 32 i, BitVec.ofNat 32 x, rv, rv⟩
    exact ⟨r, key _ r (by rw [if_neg w8, if_neg w16, if_pos rfl]) hr, hc⟩
  by_cases w64 : w = 64
  · subst w64
    obtain ⟨r, hr, hc⟩ := computes64 ⟨BitVec.ofNat 64 p, BitVec.ofNat 64 i, BitVec.ofNat 64 x, rv, rv⟩
    exact ⟨r, key _ r (by rw [if_neg w8, if_neg w16, if_neg w32, if_pos rfl]) hr, hc⟩
  · rw [if_neg w8, if_neg w16, if_neg w32, if_neg w64] at h3
    exact absurd rfl h3

/-- There are no other names, and no name twice. -/
theorem C111_names : (catalogue.map Entry.name).Nodup ∧
    ∀ n, crcCopy n ≠ none → n ∈ catalogue.map Entry.name := by
  refine ⟨by decide +kernel, fun n hn => ?_⟩
  cases h : crcMap.lookup n with
  | none => rw [crcCopy, h] at hn; exact absurd rfl hn
  | some c =>
    have : ∀ e ∈ crcMap, e.1 ∈ catalogue.map Entry.name := by decide +kernel
    exact this _ (mem_of_lookup h)

/-- The value for the characters `123456789`. -/
def checkValue (r : Raw) : Option Nat :=
  (r.output (fun _ => 0) ("123456789".toList.map fun c => UInt8.ofNat c.toNat)).map fun p => p.1.toNat

/-- The check values of the published catalogues. -/
theorem C111_check : ∀ e ∈ catalogue, (crcCopy e.name).bind checkValue = some e.check := by decide +kernel

/-! ## CRCs by description -/

theorem lookup_text {α : Type} {l : List (Name × α)} (h : ∀ e ∈ l, e.1.take 5 ≠ "poly_".toList) (poly : List Nat)
    (ps : List Prop') : l.lookup (text poly ps) = none := by
  cases hl : l.lookup (text poly ps) with
  | none => rfl
  | some b =>
    refine absurd ?_ (h _ (mem_of_lookup hl))
    have : "poly_".toList.length = 5 := by decide
    rw [text, List.append_assoc, ← this, List.take_left]

/-- A description gives a calculation which computes the CRC described, for the degrees 8, 16, 32 and 64; all initial values and final
values which fit, all orders of the properties, the last one counts. -/
theorem C111_described {poly : List Nat} {l : List Prop'} (hd : ∀ d ∈ poly, d < 16)
    (hw : 4 * poly.length ∈ [8, 16, 32, 64]) (hl : ∀ p ∈ l, p.Fits (4 * poly.length)) :
    ∃ r, checkHash (text poly l) = .ok r ∧ Computes r
      (.crc (4 * poly.length) (BitVec.ofNat _ (num poly)) (BitVec.ofNat _ (initOf l)) (BitVec.ofNat _ (xoutOf l)) (revOf l) (revOf l)) := by
  have hg : getCopy (text poly l) = none := by
    rw [getCopy, lookup_text (by decide +kernel)]; rfl
  have hm : crcCopy (text poly l) = none := by
    rw [crcCopy, lookup_text (by decide +kernel)]; rfl
  obtain ⟨p, hp, hM⟩ := params_text hd hl
  have hne : p.poly ≠ [] := by rw [hM.poly]; exact hex_ne _
  have ho : order p.poly = 4 * poly.length := by rw [hM.poly, order_hex, Nat.mul_comm]
  have hdg : Digits poly := ⟨fun e => by rw [e] at hw; exact absurd hw (by decide), hd⟩
  have hc := config_ok hM hdg rfl
  have key : ∀ r, customCopy (text poly l) = .ok (some r) → checkHash (text poly l) = .ok r := by
    intro r hr
    simp only [checkHash, hg, hm, hr]
  have hcc : ∀ {o : Except Bad (Option Raw)}, (match order p.poly with
      | 8 => (p.config 8).map fun c => (AnyConfig.w8 c).make
      | 16 => (p.config 16).map fun c => (AnyConfig.w16 c).make
      | 32 => (p.config 32).map fun c => (AnyConfig.w32 c).make
      | 64 => (p.config 64).map fun c => (AnyConfig.w64 c).make
      | _ => .ok none) = o → customCopy (text poly l) = o := by
    intro o h
    rw [customCopy, hp]
    simp only [if_neg hne]
    exact h
  generalize 4 * poly.length = w at hw ho hc hM ⊢
  simp only [List.mem_cons, List.not_mem_nil, or_false] at hw
  rcases hw with rfl | rfl | rfl | rfl
  · obtain ⟨r, hr, hx⟩ := computes8 ⟨BitVec.ofNat 8 (num poly), BitVec.ofNat 8 (initOf l), BitVec.ofNat 8 (xoutOf l), revOf l, revOf l⟩
    exact ⟨r, key r (hcc (by rw [ho]; simp only [hc]; exact congrArg Except.ok hr)), hx⟩
  · obtain ⟨r, hr, hx⟩ := computes16 ⟨BitVec.ofNat 16 (num poly), BitVec.ofNat 16 (initOf l), BitVec.ofNat 16 (xoutOf l), revOf l, revOf l⟩
    exact ⟨r, key r (hcc (by rw [ho]; simp only [hc]; exact congrArg Except.ok hr)), hx⟩
  · obtain ⟨r, hr, hx⟩ := computes32 ⟨BitVec.ofNat 32 (num poly), BitVec.ofNat 32 (initOf l), BitVec.ofNat 32 (xoutOf l), revOf l, revOf l⟩
    exact ⟨r, key r (hcc (by rw [ho]; simp only [hc]; exact congrArg Except.ok hr)), hx⟩
  · obtain ⟨r, hr, hx⟩ := computes64 ⟨BitVec.ofNat 64 (num poly), BitVec.ofNat 64 (initOf l), BitVec.ofNat 64 (xoutOf l), revOf l, revOf l⟩
    exact ⟨r, key r (hcc (by rw [ho]; simp only [hc]; exact congrArg Except.ok hr)), hx⟩

/-- Descriptions of CRCs of another degree are refused. -/
theorem C111_degree {poly : List Nat} {l : List Prop'} (hd : ∀ d ∈ poly, d < 16)
    (hw : 4 * poly.length ∉ [8, 16, 32, 64]) {w : Nat} (hl : ∀ p ∈ l, p.Fits w) (n : Name) (rest : List (Name × Name)) :
    load ((n, text poly l) :: rest) = .error .unknown := by
  have hg : getCopy (text poly l) = none := by
    rw [getCopy, lookup_text (by decide +kernel)]; rfl
  have hm : crcCopy (text poly l) = none := by
    rw [crcCopy, lookup_text (by decide +kernel)]; rfl
  obtain ⟨p, hp, hM⟩ := params_text hd hl
  have hne : p.poly ≠ [] := by rw [hM.poly]; exact hex_ne _
  have ho : order p.poly = 4 * poly.length := by rw [hM.poly, order_hex, Nat.mul_comm]
  have hc : customCopy (text poly l) = .ok none := by
    rw [customCopy, hp]
    simp only [if_neg hne, ho]
    generalize 4 * poly.length = k at hw
    simp only [List.mem_cons, List.not_mem_nil, or_false, not_or] at hw
    split
    · exact absurd rfl hw.1
    · exact absurd rfl hw.2.1
    · exact absurd rfl hw.2.2.1
    · exact absurd rfl hw.2.2.2
    · rfl
  simp only [load, loadFrom, checkHash, hg, hm, hc]

theorem split_one {a : Name} (h : '_' ∉ a) : split a = [a] := by
  induction a with
  | nil => rfl
  | cons c cs ih =>
    have hc : c ≠ '_' := fun e => h (e ▸ List.mem_cons_self)
    rw [split, if_neg hc, ih (fun e => h (List.mem_cons_of_mem _ e))]

/-- Names which are in no list are refused (names with a `_` may be descriptions). -/
theorem C111_unknown {a : Name} (hb : a ∉ builtIn.map Prod.fst) (hk : a ∉ catalogue.map Entry.name) (hu : '_' ∉ a)
    (n : Name) (rest : List (Name × Name)) : load ((n, a) :: rest) = .error .unknown := by
  have hg : getCopy a = none := by
    cases h : registered.lookup a with
    | none => rw [getCopy, h]; rfl
    | some r =>
      have : ∀ e ∈ registered, e.1 ∈ builtIn.map Prod.fst := by
        rw [← List.forall_mem_map (P := fun x => x ∈ builtIn.map Prod.fst)]; decide +kernel
      exact absurd (this _ (mem_of_lookup h)) hb
  have hm : crcCopy a = none := by
    cases h : crcCopy a with
    | none => rfl
    | some r => exact absurd (C111_names.2 a (by rw [h]; exact Option.some_ne_none _)) hk
  have hc : customCopy a = .ok none := by
    rw [customCopy, split_one hu]
    by_cases ha : a = []
    · subst ha; rfl
    · simp only [params, if_neg ha]
  simp only [load, loadFrom, checkHash, hg, hm, hc]

example : "md5".toList ∉ builtIn.map Prod.fst ∧ "md5".toList ∉ catalogue.map Entry.name ∧ '_' ∉ "md5".toList := by decide +kernel

/-- The same description as in the tests of the switch: `crc_32_bzip2`. -/
example : text [0, 4, 0xc, 1, 1, 0xd, 0xb, 7] [.init (.replicate 8 15), .xout (.replicate 8 15), .notRev] =
      "poly_0x104c11db7_init_0xffffffff_xout_0xffffffff_not_rev".toList ∧
    ((customCopy "poly_0x104c11db7_init_0xffffffff_xout_0xffffffff_not_rev".toList).toOption.bind id).bind checkValue =
      some 0xfc891918 := by decide +kernel

/-! ## The command line tool -/

/-- Numbers of 16 and 32 bits given to the tool reach the switch as they are; bigger ones are refused with a message. -/
theorem C111_cli {calcs : Name → Option Nat} {w : Nat} {n : Name} (hw : w = 16 ∨ w = 32) (hn : calcs n = some w) (ri ro : Bool)
    (p i x : Int) (hp : 0 ≤ p) (hi : 0 ≤ i) (hx : 0 ≤ x) :
    (p < 2 ^ w ∧ i < 2 ^ w ∧ x < 2 ^ w → ∃ p' i' x', BitVec.ofInt w p' = BitVec.ofInt w p ∧ BitVec.ofInt w i' = BitVec.ofInt w i ∧
      BitVec.ofInt w x' = BitVec.ofInt w x ∧
      cliCrc calcs w n (some p) (some i) (some x) (some ri) (some ro) =
        .ok (if w = 16 then .crc16 0 n p' i' x' ri ro else .crc32 0 n p' i' x' ri ro)) ∧
    (¬(p < 2 ^ w ∧ i < 2 ^ w ∧ x < 2 ^ w) →
      cliCrc calcs w n (some p) (some i) (some x) (some ri) (some ro) = .error .told) := by
  have good : ∀ y : Int, 0 ≤ y → y < 2 ^ w → ∃ y', hexToI w (some y) = .ok y' ∧ pack w y' = .ok y' ∧
      BitVec.ofInt w y' = BitVec.ofInt w y := by
    intro y h0 h1
    rcases hw with rfl | rfl
    · by_cases hy : y > 2 ^ 15 - 1
      · refine ⟨y - 2 ^ 16, ?_, ?_, ?_⟩
        · simp only [hexToI]; rw [if_neg (by omega), if_pos (by omega)]
        · rw [pack, if_pos (by omega)]
        · apply BitVec.eq_of_toNat_eq
          rw [BitVec.toNat_ofInt, BitVec.toNat_ofInt]
          congr 1
          omega
      · refine ⟨y, ?_, ?_, rfl⟩
        · simp only [hexToI]; rw [if_neg (by omega), if_neg (by omega)]
        · rw [pack, if_pos (by omega)]
    · by_cases hy : y > 2 ^ 31 - 1
      · refine ⟨y - 2 ^ 32, ?_, ?_, ?_⟩
        · simp only [hexToI]; rw [if_neg (by omega), if_pos (by omega)]
        · rw [pack, if_pos (by omega)]
        · apply BitVec.eq_of_toNat_eq
          rw [BitVec.toNat_ofInt, BitVec.toNat_ofInt]
          congr 1
          omega
      · refine ⟨y, ?_, ?_, rfl⟩
        · simp only [hexToI]; rw [if_neg (by omega), if_neg (by omega)]
        · rw [pack, if_pos (by omega)]
  have bad : ∀ y : Int, ¬y < 2 ^ w → hexToI w (some y) = .error .told := by
    intro y hy
    simp only [hexToI]
    rw [if_pos (by omega)]
  have hnn : ¬(calcs n ≠ some w) := fun h => h hn
  have ob : ∀ {α β : Type} (a : α) (f : α → Except End β), (Except.ok a >>= f) = f a := fun _ _ => rfl
  have eb : ∀ {α β : Type} (f : α → Except End β), ((Except.error .told : Except End α) >>= f) = .error .told := fun _ => rfl
  constructor
  · rintro ⟨h1, h2, h3⟩
    obtain ⟨p', a1, a2, a3⟩ := good p hp h1
    obtain ⟨i', b1, b2, b3⟩ := good i hi h2
    obtain ⟨x', c1, c2, c3⟩ := good x hx h3
    refine ⟨p', i', x', a3, b3, c3, ?_⟩
    simp only [cliCrc, if_neg hnn, a1, b1, c1, a2, b2, c2, ob]
    rfl
  · intro h
    by_cases h1 : p < 2 ^ w
    · obtain ⟨p', a1, -, -⟩ := good p hp h1
      by_cases h2 : i < 2 ^ w
      · obtain ⟨i', b1, -, -⟩ := good i hi h2
        have h3 : ¬x < 2 ^ w := fun h3 => h ⟨h1, h2, h3⟩
        simp only [cliCrc, if_neg hnn, a1, b1, bad x h3, ob, eb]
      · simp only [cliCrc, if_neg hnn, a1, bad i h2, ob, eb]
    · simp only [cliCrc, if_neg hnn, bad p h1, eb]

/-- Keys of whole words are sent as they are; commands for CRCs tell the error codes of the switch; nothing is told when the request
is done. -/
theorem C111_cli_key (n : Name) (k : Bytes) (h : k.length % 4 = 0) : cliKey n (some k) = .ok (.key 0 n k) ∧
    (∀ c, cliEnd true (.code c) = some .told) ∧ (∀ b, cliEnd b .done = none) := by
  refine ⟨?_, fun _ => rfl, fun _ => rfl⟩
  rw [cliKey, if_neg (fun e => e h)]

/-- Calculations of another kind or width, and flags which are none, are told. -/
theorem C111_cli_told {calcs : Name → Option Nat} {w : Nat} {n : Name} (p i x : Option Int) :
    (calcs n ≠ some w → ∀ ri ro, cliCrc calcs w n p i x ri ro = .error .told) ∧
    (∀ a b c ri, calcs n = some 16 → 0 ≤ a → a < 2 ^ 16 → 0 ≤ b → b < 2 ^ 16 → 0 ≤ c → c < 2 ^ 16 →
      cliCrc calcs 16 n (some a) (some b) (some c) ri none = .error .told ∧
      cliCrc calcs 16 n (some a) (some b) (some c) none ri = .error .told) := by
  constructor
  · intro h ri ro
    rw [cliCrc, if_pos h]
  · intro a b c ri hn ha ha' hb hb' hc hc'
    have good : ∀ y : Int, 0 ≤ y → y < 2 ^ 16 → ∃ y', hexToI 16 (some y) = .ok y' := by
      intro y h0 h1
      simp only [hexToI]
      rw [if_neg (by omega)]
      split <;> exact ⟨_, rfl⟩
    obtain ⟨a', h1⟩ := good a ha ha'
    obtain ⟨b', h2⟩ := good b hb hb'
    obtain ⟨c', h3⟩ := good c hc hc'
    have ob : ∀ {α β : Type} (a : α) (f : α → Except End β), (Except.ok a >>= f) = f a := fun _ _ => rfl
    constructor
    · cases ri <;> simp only [cliCrc, if_neg (fun h : calcs n ≠ some 16 => h hn), h1, h2, h3, ob]
    · cases ri <;> simp only [cliCrc, if_neg (fun h : calcs n ≠ some 16 => h hn), h1, h2, h3, ob]

/-! ## A concrete session -/

/-- Two contexts. -/
def prog : List (List (Name × Name)) :=
  [[("h".toList, "crc16_custom".toList), ("g".toList, "crc16_custom".toList)], [("t".toList, "toeplitz".toList)]]

example : (∀ cfg ∈ prog, (cfg.map Prod.fst).Nodup) ∧ (∀ cfg ∈ prog, ∀ p ∈ cfg, p.2 ∈ builtIn.map Prod.fst) := by decide +kernel

/-- The result of a session. -/
def session (qs : List Req) : Option (List Res) :=
  ((prog.mapM load).toOption.bind fun s => Sys.run (fun _ => 0) s qs).map Prod.snd

example : session [.compute 0 "h".toList [49, 50, 51, 52, 53, 54, 55, 56, 57],
    .crc16 0 "h".toList 0x1021 (-1) 0 false false,
    .compute 0 "h".toList [49, 50, 51, 52, 53, 54, 55, 56, 57],
    .compute 0 "g".toList [49, 50, 51, 52, 53, 54, 55, 56, 57],
    .crc32 0 "h".toList 0 0 0 false false,
    .compute 1 "t".toList [0x80, 0, 0, 0],
    .key 1 "t".toList [1, 2, 3],
    .key 1 "t".toList [1, 2, 3, 4],
    .compute 1 "t".toList [0x80, 0, 0, 0]] =
    some [.value 0xbb3d, .done, .value 0x29b1, .value 0xbb3d, .code 2, .value 0, .code 3, .done, .value 0x01020304] := by
  decide +kernel

/-! ## What does not hold -/

/-- **Algorithms which are accepted but not there.**  The program is loaded if the algorithm is known by any of the three lists;
the calculation then looks in the first list only, and has no algorithm: the first packet which needs it is undefined (a null
pointer is called). -/
theorem C111_refuted {a : Name} {r : Raw} (h : checkHash a = .ok r) (hg : getCopy a = none) (n : Name) :
    ∃ m, load [(n, a)] = .ok m ∧ ∀ xx buf, Sys.step xx [m] (.compute 0 n buf) = none := by
  refine ⟨Calcs.set (fun _ => none) n none, ?_, fun xx buf => ?_⟩
  · simp [load, loadFrom, h, hg]
  · simp [Sys.step, Sys.find, Calcs.set]

/-- All the predefined CRCs are such algorithms. -/
theorem C111_refuted_catalogue {e : Entry} (he : e ∈ catalogue) (n : Name) :
    ∃ m, load [(n, e.name)] = .ok m ∧ ∀ xx buf, Sys.step xx [m] (.compute 0 n buf) = none := by
  obtain ⟨r, hr, _⟩ := C111_catalogue e he
  exact C111_refuted hr (catalogue_conf e he).1 n

/-- All the described CRCs are such algorithms. -/
theorem C111_refuted_described {poly : List Nat} {l : List Prop'} (hd : ∀ d ∈ poly, d < 16)
    (hw : 4 * poly.length ∈ [8, 16, 32, 64]) (hl : ∀ p ∈ l, p.Fits (4 * poly.length)) (n : Name) :
    ∃ m, load [(n, text poly l)] = .ok m ∧ ∀ xx buf, Sys.step xx [m] (.compute 0 n buf) = none := by
  obtain ⟨r, hr, _⟩ := C111_described hd hw hl
  refine C111_refuted hr ?_ n
  rw [getCopy, lookup_text (by decide +kernel)]; rfl

/-- **Unknown names.**  A request for a calculation the program does not have is not answered with `INVALID_CALCULATION_NAME`, in no
state: `at` throws. -/
theorem C111_refuted_name (xx : Bytes → BitVec 64) (s : Sys) (k : Nat) (n : Name) (hn : s.find k n = none) :
    (∀ p i x ri ro, s.step xx (.crc16 k n p i x ri ro) = some (s, .exception)) ∧
    (∀ p i x ri ro, s.step xx (.crc32 k n p i x ri ro) = some (s, .exception)) ∧
    (∀ key, s.step xx (.key k n key) = some (s, .exception)) := by
  refine ⟨fun p i x ri ro => ?_, fun p i x ri ro => ?_, fun key => ?_⟩
  · simp only [Sys.step, Sys.setCrc, hn]
  · simp only [Sys.step, Sys.setCrc, hn]
  · simp only [Sys.step, Sys.setKey, hn]

/-- The reason of a failure. -/
def why {α : Type} : Except Bad α → Option Bad
  | .ok _ => none
  | .error e => some e

/-- **Descriptions which are read only in part**, or stop the switch.  After an empty token the rest is not looked at; digits which
are none fail an assertion. -/
theorem C111_refuted_text :
    params {} (split "poly_0x107__init_0xff_nonsense".toList) = params {} (split "poly_0x107".toList) ∧
    why (customCopy "poly_0x1xy".toList) = some .abort ∧ why (customCopy "poly_0x107_init_0x".toList) = some .abort ∧
    why (customCopy "poly_0x107_init_0x100".toList) = some .range := by decide +kernel

/-- **Commands which end the tool**: words which are no numbers, numbers too small, and any mistake in a key (the command for keys
has no handler: neither for bad arguments nor for answers of the switch). -/
theorem C111_refuted_cli {calcs : Name → Option Nat} {n : Name} (hn : calcs n = some 16) (i x : Option Int) (ri ro : Bool) :
    cliCrc calcs 16 n none i x (some ri) (some ro) = .error .crash ∧
    cliCrc calcs 16 n (some (-0x8001)) (some 0) (some 0) (some ri) (some ro) = .error .crash ∧
    cliKey n (some [1, 2, 3]) = .error .crash ∧
    cliEnd false (.code 2) = some .crash := by
  have hnn : ¬(calcs n ≠ some 16) := fun h => h hn
  refine ⟨?_, ?_, rfl, rfl⟩
  · simp only [cliCrc, if_neg hnn]; rfl
  · simp only [cliCrc, if_neg hnn]; rfl

end Bm.Algo
