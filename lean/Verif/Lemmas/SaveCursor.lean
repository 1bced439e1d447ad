import Verif.Lemmas.SaveTab
import Verif.Lemmas.ProfileRun
import Verif.Model.SaveProfile

/-! The cursors of the handle managers matter only for calls that allocate a handle. -/

set_option linter.unusedSectionVars false

namespace Bm.Save
open Spec

/-- A handle manager with its cursor at 0 (if `a`). -/
def zH (a : Bool) (m : HandleMgr) : HandleMgr := ⟨m.handles, if a then 0 else m.firstUnset⟩

theorem zH_valid (a : Bool) (m : HandleMgr) (i : Nat) : (zH a m).validHandle i = m.validHandle i := rfl

theorem zH_release (a : Bool) (m : HandleMgr) (i : Nat) :
    (zH a m).releaseHandle i = (m.releaseHandle i).map fun r => (r.1, zH a r.2) := by
  cases a with
  | true => exact release_zero m i
  | false => show m.releaseHandle i = _; cases m.releaseHandle i <;> rfl

theorem zH_iterate (a : Bool) (m : HandleMgr) : (zH a m).iterate = m.iterate := by
  cases a with
  | true => exact iterFrom_zero _ _ _
  | false => rfl

section prof
variable {A : Type}

/-- A profile with its cursors at 0 (if `a`, if `b`). -/
def zP (a b : Bool) (p : AProf A) : AProf A := { p with mbrH := zH a p.mbrH, grpH := zH b p.grpH }

variable (a b : Bool) (p : AProf A)

theorem zP_deleteMember (m : Nat) : (zP a b p).deleteMember m = (p.deleteMember m).map fun r => (r.1, zP a b r.2) := by
  simp only [AProf.deleteMember, AProf.isValidMbr, Option.bind_eq_bind, Option.pure_def]
  show ((p.mbrH.validHandle m).bind fun v => if (!v) = true then _ else (IIdx.makeMbr m).bind fun w => (p.rc.get w).bind fun c =>
    if c > 0 then _ else ((zH a p.mbrH).releaseHandle m).bind _) = _
  rw [zH_release]
  cases p.mbrH.validHandle m with
  | none => rfl
  | some v =>
    cases v with
    | false => rfl
    | true =>
      simp only [Option.bind_some, Bool.not_true, Bool.false_eq_true, if_false]
      cases IIdx.makeMbr m with
      | none => rfl
      | some w =>
        simp only [Option.bind_some]
        cases p.rc.get w with
        | none => rfl
        | some c =>
          simp only [Option.bind_some]
          by_cases hc : c > 0
          · simp only [hc, if_true, Option.map_some]
          · simp only [hc, if_false]
            cases p.mbrH.releaseHandle m with
            | none => rfl
            | some x => obtain ⟨ok, h⟩ := x; cases ok <;> rfl

theorem zP_modifyMember (m : Nat) (x : Option A) :
    (zP a b p).modifyMember m x = (p.modifyMember m x).map fun r => (r.1, zP a b r.2) := by
  cases x with
  | none => rfl
  | some x =>
    simp only [AProf.modifyMember, AProf.isValidMbr, Option.bind_eq_bind, Option.pure_def]
    show ((p.mbrH.validHandle m).bind fun v => if (!v) = true then _ else if m < p.entries.length then _ else _) = _
    cases p.mbrH.validHandle m with
    | none => rfl
    | some v =>
      cases v with
      | false => rfl
      | true =>
        simp only [Option.bind_some, Bool.not_true, Bool.false_eq_true, if_false]
        by_cases h : m < p.entries.length
        · simp only [h, if_true]; rfl
        · simp only [h, if_false]; rfl

theorem zP_deleteGroup (g : Nat) : (zP a b p).deleteGroup g = (p.deleteGroup g).map fun r => (r.1, zP a b r.2) := by
  simp only [AProf.deleteGroup, AProf.isValidGrp, Option.bind_eq_bind, Option.pure_def]
  show ((p.grpH.validHandle g).bind fun v => if (!v) = true then _ else (IIdx.makeGrp g).bind fun w => (p.rc.get w).bind fun c =>
    if c > 0 then _ else (p.groups[g]?).bind fun info => (AProf.decreaseAll p.rc info).bind fun rc =>
      ((zH b p.grpH).releaseHandle g).bind _) = _
  rw [zH_release]
  cases p.grpH.validHandle g with
  | none => rfl
  | some v =>
    cases v with
    | false => rfl
    | true =>
      simp only [Option.bind_some, Bool.not_true, Bool.false_eq_true, if_false]
      cases IIdx.makeGrp g with
      | none => rfl
      | some w =>
        simp only [Option.bind_some]
        cases p.rc.get w with
        | none => rfl
        | some c =>
          simp only [Option.bind_some]
          by_cases hc : c > 0
          · simp only [hc, if_true, Option.map_some]
          · simp only [hc, if_false]
            cases p.groups[g]? with
            | none => rfl
            | some info =>
              simp only [Option.bind_some]
              cases AProf.decreaseAll p.rc info with
              | none => rfl
              | some rc =>
                simp only [Option.bind_some]
                cases p.grpH.releaseHandle g with
                | none => rfl
                | some x => obtain ⟨ok, h⟩ := x; cases ok <;> rfl

theorem zP_join (m g : Nat) :
    (zP a b p).addMemberToGroup m g = (p.addMemberToGroup m g).map fun r => (r.1, zP a b r.2) := by
  simp only [AProf.addMemberToGroup, AProf.isValidMbr, AProf.isValidGrp, Option.bind_eq_bind, Option.pure_def]
  show ((p.mbrH.validHandle m).bind fun v => if (!v) = true then _ else (p.grpH.validHandle g).bind fun v =>
    if (!v) = true then _ else (p.groups[g]?).bind fun info => if (Ras.add info m).1 = true then
      (IIdx.makeMbr m).bind fun w => (p.rc.increase w).bind _ else _) = _
  cases p.mbrH.validHandle m with
  | none => rfl
  | some v =>
    cases v with
    | false => rfl
    | true =>
      simp only [Option.bind_some, Bool.not_true, Bool.false_eq_true, if_false]
      cases p.grpH.validHandle g with
      | none => rfl
      | some v =>
        cases v with
        | false => rfl
        | true =>
          simp only [Option.bind_some, Bool.not_true, Bool.false_eq_true, if_false]
          cases p.groups[g]? with
          | none => rfl
          | some info =>
            simp only [Option.bind_some]
            by_cases hr : (Ras.add info m).1 = true
            · simp only [hr, if_true]
              cases IIdx.makeMbr m with
              | none => rfl
              | some w =>
                simp only [Option.bind_some]
                cases p.rc.increase w <;> rfl
            · simp only [hr]; rfl

theorem zP_leave (m g : Nat) :
    (zP a b p).removeMemberFromGroup m g = (p.removeMemberFromGroup m g).map fun r => (r.1, zP a b r.2) := by
  simp only [AProf.removeMemberFromGroup, AProf.isValidMbr, AProf.isValidGrp, Option.bind_eq_bind, Option.pure_def]
  show ((p.mbrH.validHandle m).bind fun v => if (!v) = true then _ else (p.grpH.validHandle g).bind fun v =>
    if (!v) = true then _ else (p.groups[g]?).bind fun info => if (Ras.remove info m).1 = true then
      (IIdx.makeMbr m).bind fun w => (p.rc.decrease w).bind _ else _) = _
  cases p.mbrH.validHandle m with
  | none => rfl
  | some v =>
    cases v with
    | false => rfl
    | true =>
      simp only [Option.bind_some, Bool.not_true, Bool.false_eq_true, if_false]
      cases p.grpH.validHandle g with
      | none => rfl
      | some v =>
        cases v with
        | false => rfl
        | true =>
          simp only [Option.bind_some, Bool.not_true, Bool.false_eq_true, if_false]
          cases p.groups[g]? with
          | none => rfl
          | some info =>
            simp only [Option.bind_some]
            by_cases hr : (Ras.remove info m).1 = true
            · simp only [hr, if_true]
              cases IIdx.makeMbr m with
              | none => rfl
              | some w =>
                simp only [Option.bind_some]
                cases p.rc.decrease w <;> rfl
            · simp only [hr]; rfl

theorem zP_getMembers : (zP a b p).getMembers = p.getMembers := by
  unfold AProf.getMembers
  show (zH a p.mbrH).iterate.bind _ = _
  rw [zH_iterate]; rfl

theorem zP_getGroups : (zP a b p).getGroups = p.getGroups := by
  unfold AProf.getGroups
  show (zH b p.grpH).iterate.bind _ = _
  rw [zH_iterate]; rfl

theorem zP_resetState : (zP a b p).resetState = zP a b p.resetState := by
  cases a <;> rfl

theorem zP_addMember (x : Option A) : (zP false b p).addMember x = (p.addMember x).map fun r => (r.1, zP false b r.2) := by
  cases x with
  | none => rfl
  | some x =>
    simp only [AProf.addMember, AProf.entriesInsert, Option.bind_eq_bind, Option.pure_def]
    show (p.mbrH.getHandle.bind fun y => ((if y.1 ≤ p.entries.length then (IIdx.makeMbr y.1).bind fun w =>
      (p.rc.set w 0).bind _ else _ : Option (AProf A)).bind _)) = _
    cases p.mbrH.getHandle with
    | none => rfl
    | some y =>
      simp only [Option.bind_some]
      by_cases hy : y.1 ≤ p.entries.length
      · simp only [hy, if_true]
        cases IIdx.makeMbr y.1 with
        | none => rfl
        | some w =>
          simp only [Option.bind_some]
          cases p.rc.set w 0 <;> rfl
      · simp only [hy, if_false]; rfl

theorem zP_createGroup : (zP a false p).createGroup = p.createGroup.map fun r => (r.1, zP a false r.2) := by
  simp only [AProf.createGroup, Option.bind_eq_bind, Option.pure_def]
  show (p.grpH.getHandle.bind fun y => (AProf.insertGroup p.groups y.1).bind fun gs => (IIdx.makeGrp y.1).bind fun w =>
    (p.rc.set w 0).bind _) = _
  cases p.grpH.getHandle with
  | none => rfl
  | some y =>
    simp only [Option.bind_some]
    cases AProf.insertGroup p.groups y.1 with
    | none => rfl
    | some gs =>
      simp only [Option.bind_some]
      cases IIdx.makeGrp y.1 with
      | none => rfl
      | some w =>
        simp only [Option.bind_some]
        cases p.rc.set w 0 <;> rfl

end prof

/-! ## Tables -/

section unit
variable {t : TableKind} {V R : Type}

/-- A match unit with its cursor at 0 (if `c`). -/
def zU (c : Bool) (mu : MUnit t.str V R) : MUnit t.str V R := { mu with handles := zH c mu.handles }

theorem zU_getEntry (c : Bool) (mu : MUnit t.str V R) (h : Nat) : (zU c mu).getEntry h = mu.getEntry h := rfl

theorem zU_delete (c : Bool) (mu : MUnit t.str V R) (h : Nat) :
    (zU c mu).exec (.delete h) = (mu.exec (.delete h)).map fun r => (r.1, zU c r.2) := by
  cases c with
  | true =>
    simp only [MUnit.exec]
    show Option.map _ ((z mu).deleteEntry h) = _
    rw [delete_z]
    cases mu.deleteEntry h <;> rfl
  | false => show mu.exec _ = _; cases mu.exec (.delete h) <;> rfl

theorem zU_modify (c : Bool) (mu : MUnit t.str V R) (h : Nat) (v : V) :
    (zU c mu).exec (.modify h v) = (mu.exec (.modify h v)).map fun r => (r.1, zU c r.2) := by
  cases c with
  | true =>
    simp only [MUnit.exec]
    show Option.map _ ((z mu).modifyEntry h v) = _
    rw [modify_z]
    cases mu.modifyEntry h v <;> rfl
  | false => show mu.exec _ = _; cases mu.exec (.modify h v) <;> rfl

theorem zU_get (c : Bool) (mu : MUnit t.str V R) (h : Nat) :
    (zU c mu).exec (.get h) = (mu.exec (.get h)).map fun r => (r.1, zU c r.2) := by
  simp only [MUnit.exec, zU_getEntry]
  cases mu.getEntry h <;> rfl

theorem zU_lookup (c : Bool) (mu : MUnit t.str V R) (q : Bytes) (n ts : Nat) :
    (zU c mu).exec (.lookup q n ts) = (mu.exec (.lookup q n ts)).map fun r => (r.1, zU c r.2) := by
  cases c with
  | true =>
    simp only [MUnit.exec]
    show Option.map _ ((z mu).lookup q n ts) = _
    rw [lookup_z]
    cases mu.lookup q n ts <;> rfl
  | false => show mu.exec _ = _; cases mu.exec (.lookup q n ts) <;> rfl

theorem zU_reset (c : Bool) (mu : MUnit t.str V R) : (zU c mu).resetState = zU c mu.resetState := by
  cases c <;> rfl

end unit

/-! ## The whole -/

variable {ι : Type} [DecidableEq ι] {kind : ι → TableKind} {R A : Type}

/-- The system with some cursors at 0. -/
def zS (a b : Bool) (c : ι → Bool) (s : ISys ι kind R A) : ISys ι kind R A where
  prof := zP a b s.prof
  tabs := fun i => { s.tabs i with mu := zU (c i) (s.tabs i).mu }

/-- Calls that allocate a handle from a manager whose cursor has been changed. -/
def Alloc (a b : Bool) (c : ι → Bool) : POp ι (KeyOf kind) A → Prop
  | .addMember _ => a = true
  | .newGroup => b = true
  | .tAdd i _ _ _ => c i = true
  | _ => False

variable (a b : Bool) (c : ι → Bool) (s : ISys ι kind R A)

theorem zS_upd (i : ι) (T : ITab (kind i).str R) :
    upd (zS a b c s).tabs i { T with mu := zU (c i) T.mu } = (zS a b c { s with tabs := upd s.tabs i T }).tabs := by
  funext j
  by_cases h : j = i
  · subst h; rw [upd_self]; simp only [zS, upd_self]
  · rw [upd_ne _ _ _ h]; simp only [zS, upd_ne _ _ _ h]

theorem zS_setMu (i : ι) (mu : MUnit (kind i).str Nat R) :
    (zS a b c s).setMu i (zU (c i) mu) = zS a b c (s.setMu i mu) := by
  have := zS_upd a b c s i { s.tabs i with mu := mu }
  simp only [ISys.setMu]
  rw [ISys.mk.injEq]
  exact ⟨rfl, this⟩

theorem zS_setRc (rc : RefCounts) : (zS a b c s).setRc rc = zS a b c (s.setRc rc) := rfl

theorem zS_checkRef (r : Ref) : (zS a b c s).checkRef r = s.checkRef r := by cases r <;> rfl

theorem zS_tDel (i : ι) (h : Nat) : (zS a b c s).tDel i h = (s.tDel i h).map fun r => (r.1, zS a b c r.2) := by
  simp only [ISys.tDel, Option.bind_eq_bind, Option.pure_def]
  show ((s.tabs i).mu.getEntry h).bind _ = _
  cases (s.tabs i).mu.getEntry h with
  | none => rfl
  | some x =>
    simp only [Option.bind_some]
    obtain ⟨cd, kv⟩ := x
    cases cd <;> cases kv <;> try rfl
    rename_i kv
    obtain ⟨k, w⟩ := kv
    show ((s.prof.rc.decrease w).bind fun rc => ((zU (c i) (s.tabs i).mu).exec (.delete h)).bind _) = _
    rw [zU_delete]
    simp only
    cases s.prof.rc.decrease w with
    | none => rfl
    | some rc =>
      simp only [Option.bind_some]
      cases (s.tabs i).mu.exec (.delete h) with
      | none => rfl
      | some y =>
        simp only [Option.map_some, Option.bind_some, zS_setRc, zS_setMu]

theorem zS_tMod (i : ι) (h : Nat) (r : Ref) : (zS a b c s).tMod i h r = (s.tMod i h r).map fun r => (r.1, zS a b c r.2) := by
  simp only [ISys.tMod, Option.bind_eq_bind, Option.pure_def]
  show ((s.tabs i).mu.getEntry h).bind _ = _
  cases (s.tabs i).mu.getEntry h with
  | none => rfl
  | some x =>
    simp only [Option.bind_some]
    obtain ⟨cd, kv⟩ := x
    cases cd <;> cases kv <;> try rfl
    rename_i kv
    obtain ⟨k, w⟩ := kv
    simp only [zS_setRc, zS_checkRef]
    show ((s.prof.rc.decrease w).bind fun rc => ((s.setRc rc).checkRef r).bind fun x => _) = _
    cases s.prof.rc.decrease w with
    | none => rfl
    | some rc =>
      simp only [Option.bind_some]
      cases (s.setRc rc).checkRef r with
      | none => rfl
      | some e =>
        simp only [Option.bind_some]
        cases e with
        | some e => rfl
        | none =>
          simp only
          cases IIdx.make r with
          | none => rfl
          | some w' =>
            simp only [Option.bind_some]
            cases rc.increase w' with
            | none => rfl
            | some rc' =>
              simp only [Option.bind_some]
              show ((zU (c i) (s.tabs i).mu).exec (.modify h w')).bind _ = _
              rw [zU_modify]
              cases (s.tabs i).mu.exec (.modify h w') with
              | none => rfl
              | some y => simp only [Option.map_some, Option.bind_some, zS_setMu]

theorem zS_tAdd (i : ι) (hc : c i = false) (key) (r : Ref) (now : Nat) :
    (zS a b c s).tAdd i key r now = (s.tAdd i key r now).map fun r => (r.1, zS a b c r.2) := by
  have hmu : ((zS a b c s).tabs i).mu = (s.tabs i).mu := by show zU (c i) _ = _; rw [hc]; rfl
  have hz : ∀ mu : MUnit (kind i).str Nat R, mu = zU (c i) mu := by intro mu; rw [hc]; rfl
  simp only [ISys.tAdd, Option.bind_eq_bind, Option.pure_def, zS_checkRef, hmu, zS_setRc]
  cases s.checkRef r with
  | none => rfl
  | some e =>
    cases e with
    | some e => rfl
    | none =>
      simp only [Option.bind_some]
      cases IIdx.make r with
      | none => rfl
      | some w =>
        simp only [Option.bind_some]
        show (s.prof.rc.increase w).bind _ = _
        cases s.prof.rc.increase w with
        | none => rfl
        | some rc =>
          simp only [Option.bind_some]
          cases (s.tabs i).mu.exec (.add key w now) with
          | none => rfl
          | some y =>
            simp only [Option.map_some, Option.bind_some]
            rw [hz y.2, zS_setMu, ← hz]

theorem zS_chosen (w hash : Nat) : (zS a b c s).chosen w hash = s.chosen w hash := rfl

theorem zS_tLookup (i : ι) (q : Bytes) (nb ts hash : Nat) :
    (zS a b c s).tLookup i q nb ts hash = (s.tLookup i q nb ts hash).map fun r => (r.1, zS a b c r.2) := by
  simp only [ISys.tLookup, Option.bind_eq_bind, Option.pure_def, zS_chosen]
  show ((zU (c i) (s.tabs i).mu).exec (.lookup q nb ts)).bind _ = _
  rw [zU_lookup]
  cases (s.tabs i).mu.exec (.lookup q nb ts) with
  | none => rfl
  | some y =>
    obtain ⟨o, mu⟩ := y
    simp only [Option.map_some, Option.bind_some, zS_setMu]
    have key : (if ((zS a b c s).tabs i).defaultSet = true then
          (s.chosen ((zS a b c s).tabs i).defaultIndex hash).bind fun a' =>
            some ((POut.look none a' : POut ι (KeyOf kind) A), zS a b c (s.setMu i mu))
        else some (.look none .builtin, zS a b c (s.setMu i mu))) =
        (if (s.tabs i).defaultSet = true then
          (s.chosen (s.tabs i).defaultIndex hash).bind fun a' =>
            some ((POut.look none a' : POut ι (KeyOf kind) A), s.setMu i mu)
        else some (.look none .builtin, s.setMu i mu)).map fun r => (r.1, zS a b c r.2) := by
      show (if (s.tabs i).defaultSet = true then (s.chosen (s.tabs i).defaultIndex hash).bind _ else _) = _
      by_cases h : (s.tabs i).defaultSet = true
      · simp only [h, if_true]
        cases s.chosen (s.tabs i).defaultIndex hash <;> rfl
      · simp only [h]; rfl
    cases o with
    | hit h w => simp only; cases s.chosen w hash <;> rfl
    | _ => exact key

theorem zS_dropDefault (i : ι) : (zS a b c s).dropDefault i = s.dropDefault i := rfl

theorem zS_setDflt (i : ι) (r : Ref) : (zS a b c s).setDflt i r = (s.setDflt i r).map fun r => (r.1, zS a b c r.2) := by
  have hv : (zS a b c s).validRef r = s.validRef r := by cases r <;> rfl
  simp only [ISys.setDflt, Option.bind_eq_bind, Option.pure_def, hv, zS_dropDefault, zS_setRc]
  show (if (s.tabs i).constDefault = true then _ else _) = _
  by_cases hc : (s.tabs i).constDefault = true
  · simp only [hc, if_true]; rfl
  · simp only [hc]
    cases s.validRef r with
    | none => rfl
    | some v =>
      cases v with
      | false => rfl
      | true =>
        simp only [Option.bind_some, Bool.not_true, Bool.false_eq_true, if_false]
        cases s.dropDefault i with
        | none => rfl
        | some rc =>
          simp only [Option.bind_some]
          cases IIdx.make r with
          | none => rfl
          | some w =>
            simp only [Option.bind_some]
            cases rc.increase w with
            | none => rfl
            | some rc' =>
              simp only [Option.bind_some, Option.map_some]
              have := zS_upd a b c (s.setRc rc') i { (s.setRc rc').tabs i with defaultSet := true, defaultIndex := w }
              simp only [Option.some.injEq, Prod.mk.injEq, true_and]
              rw [ISys.mk.injEq]
              exact ⟨rfl, this⟩

theorem zS_unsetDflt (i : ι) : (zS a b c s).unsetDflt i = (s.unsetDflt i).map fun r => (r.1, zS a b c r.2) := by
  simp only [ISys.unsetDflt, Option.bind_eq_bind, Option.pure_def, zS_dropDefault, zS_setRc]
  cases s.dropDefault i with
  | none => rfl
  | some rc =>
    simp only [Option.bind_some, Option.map_some]
    have := zS_upd a b c (s.setRc rc) i { (s.setRc rc).tabs i with defaultSet := false }
    simp only [Option.some.injEq, Prod.mk.injEq, true_and]
    rw [ISys.mk.injEq]
    exact ⟨rfl, this⟩

theorem zS_clearTab (i : ι) (d : Bool) : ISys.clearTab ((zS a b c s).tabs i) d =
    { ISys.clearTab (s.tabs i) d with mu := zU (c i) (ISys.clearTab (s.tabs i) d).mu } := by
  simp only [ISys.clearTab, zS, zU_reset]

theorem zS_exec (op : POp ι (KeyOf kind) A) (h : ¬ Alloc a b c op) :
    (zS a b c s).exec op = (s.exec op).map fun r => (r.1, zS a b c r.2) := by
  cases op with
  | addMember x =>
    cases a with
    | true => exact absurd rfl h
    | false =>
      simp only [ISys.exec]
      show Option.map _ ((zP false b s.prof).addMember x) = _
      rw [zP_addMember]
      cases s.prof.addMember x <;> rfl
  | newGroup =>
    cases b with
    | true => exact absurd rfl h
    | false =>
      simp only [ISys.exec]
      show Option.map _ ((zP a false s.prof).createGroup) = _
      rw [zP_createGroup]
      cases s.prof.createGroup <;> rfl
  | delMember m =>
    simp only [ISys.exec]
    show Option.map _ ((zP a b s.prof).deleteMember m) = _
    rw [zP_deleteMember]
    cases s.prof.deleteMember m <;> rfl
  | modMember m x =>
    simp only [ISys.exec]
    show Option.map _ ((zP a b s.prof).modifyMember m x) = _
    rw [zP_modifyMember]
    cases s.prof.modifyMember m x <;> rfl
  | delGroup g =>
    simp only [ISys.exec]
    show Option.map _ ((zP a b s.prof).deleteGroup g) = _
    rw [zP_deleteGroup]
    cases s.prof.deleteGroup g <;> rfl
  | join m g =>
    simp only [ISys.exec]
    show Option.map _ ((zP a b s.prof).addMemberToGroup m g) = _
    rw [zP_join]
    cases s.prof.addMemberToGroup m g <;> rfl
  | leave m g =>
    simp only [ISys.exec]
    show Option.map _ ((zP a b s.prof).removeMemberFromGroup m g) = _
    rw [zP_leave]
    cases s.prof.removeMemberFromGroup m g <;> rfl
  | getMember m =>
    simp only [ISys.exec]
    show Option.map _ (s.prof.getMember m) = _
    cases s.prof.getMember m <;> rfl
  | getMembers =>
    simp only [ISys.exec]
    show Option.map _ (zP a b s.prof).getMembers = _
    rw [zP_getMembers]
    cases s.prof.getMembers <;> rfl
  | getGroup g =>
    simp only [ISys.exec]
    show Option.map _ (s.prof.getGroup g) = _
    cases s.prof.getGroup g <;> rfl
  | getGroups =>
    simp only [ISys.exec]
    show Option.map _ (zP a b s.prof).getGroups = _
    rw [zP_getGroups]
    cases s.prof.getGroups <;> rfl
  | counts => rfl
  | tAdd i key r now =>
    have hc : c i = false := by simpa [Alloc] using h
    exact zS_tAdd a b c s i hc key r now
  | tDel i hd => exact zS_tDel a b c s i hd
  | tMod i hd r => exact zS_tMod a b c s i hd r
  | tGet i hd =>
    simp only [ISys.exec, ISys.tGet, Option.bind_eq_bind, Option.pure_def]
    show ((zU (c i) (s.tabs i).mu).exec (.get hd)).bind _ = _
    rw [zU_get]
    cases (s.tabs i).mu.exec (.get hd) <;> rfl
  | tLookup i q nb ts hash => exact zS_tLookup a b c s i q nb ts hash
  | setDflt i r => exact zS_setDflt a b c s i r
  | unsetDflt i => exact zS_unsetDflt a b c s i
  | clear i d =>
    simp only [ISys.exec, Option.map_some, zS_clearTab, zS_upd]
    rfl
  | resetAll =>
    simp only [ISys.exec, Option.map_some, ISys.resetAll, zS_clearTab]
    simp only [Option.some.injEq, Prod.mk.injEq, true_and]
    rw [ISys.mk.injEq]
    exact ⟨zP_resetState a b s.prof, rfl⟩

variable [Fintype ι]

theorem zS_run : ∀ (ops : List (POp ι (KeyOf kind) A)) (s : ISys ι kind R A), (∀ op ∈ ops, ¬ Alloc a b c op) →
    (zS a b c s).run ops = (s.run ops).map fun r => (r.1, zS a b c r.2)
  | [], s, _ => rfl
  | op :: ops, s, h => by
    simp only [ISys.run, zS_exec a b c s op (h op (by simp)), Option.bind_eq_bind, Option.pure_def]
    cases s.exec op with
    | none => rfl
    | some x =>
      simp only [Option.map_some, Option.bind_some, zS_run ops x.2 (fun o ho => h o (by simp [ho]))]
      cases x.2.run ops <;> rfl

theorem zS_pre (op : POp ι (KeyOf kind) A) : (zS a b c s).Pre op ↔ s.Pre op := by cases op <;> exact Iff.rfl

theorem zS_clean : ∀ (ops : List (POp ι (KeyOf kind) A)) (s : ISys ι kind R A), (∀ op ∈ ops, ¬ Alloc a b c op) →
    (CleanRun (zS a b c s) ops ↔ CleanRun s ops)
  | [], s, _ => Iff.rfl
  | op :: ops, s, h => by
    simp only [CleanRun, zS_exec a b c s op (h op (by simp)), zS_pre]
    have hcfg : (zS a b c s).cfg = s.cfg := rfl
    rw [hcfg]
    cases s.exec op with
    | none => rfl
    | some x => simp only [Option.map_some, zS_clean ops x.2 (fun o ho => h o (by simp [ho]))]

end Bm.Save
