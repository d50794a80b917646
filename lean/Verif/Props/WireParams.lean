import Verif.Props.Wire
/-
  C30 for parameter definitions and parameter blocks.
-/
namespace Iamf.Props
open Iamf

/-! ### Schedules -/

/-- Durations, each followed by the rows of its subblock. -/
def interleave : List UInt32 → List (List Field) → List Field
  | [], _ => []
  | d :: ds, t :: ts => [.leb d] ++ (t ++ interleave ds ts)
  | d :: ds, [] => [.leb d] ++ interleave ds []

/-- `duration`, `constant_subblock_duration`, and if that is zero the number of subblocks and their durations; `data` are
the rows of the subblocks (none in a definition). -/
def scheduleTable (s : SubblockSchedule) (data : List (List Field)) : List Field :=
  [.leb s.duration, .leb s.constantSubblockDuration] ++
    (if s.constantSubblockDuration.toNat = 0 then [.leb s.numSubblocks] ++ interleave s.subblockDurations data
    else data.flatten)

theorem emits_interlaced {g : LebGen} {α : Type} (w : α → Wr Unit) (P : α → Prop) (t : α → List Field) (ds : List UInt32)
    (l : List α) (hl : ds.length = l.length) (h : ∀ x ∈ l, Emits g (w x) (P x) (t x)) :
    Emits g (SubblockSchedule.wInterlaced ds (some (l.map w))) (∀ x ∈ l, P x) (interleave ds (l.map t)) := by
  induction ds generalizing l with
  | nil =>
    have : l = [] := by cases l with | nil => rfl | cons _ _ => simp at hl
    subst this
    exact Emits.ret.cast (by simp) (fun _ => rfl)
  | cons d ds ih =>
    match l with
    | [] => simp at hl
    | x :: xs =>
      have h2 := ih xs (by simpa using hl) fun q hq => h q (by simp [hq])
      simp only [List.map_cons, SubblockSchedule.wInterlaced, interleave]
      exact (Emits.uleb.bind ((h x (by simp)).bind h2)).cast (by simp) (fun _ => rfl)

theorem emits_interlaced_none {g : LebGen} (ds : List UInt32) :
    Emits g (SubblockSchedule.wInterlaced ds none) True (interleave ds []) := by
  induction ds with
  | nil => exact Emits.ret
  | cons d ds ih =>
    simp only [SubblockSchedule.wInterlaced, interleave]
    exact (Emits.uleb.bind ih).cast (by simp) (fun _ => rfl)

theorem made_take (s : SubblockSchedule) (hm : s.Made) : s.constantSubblockDuration = 0 →
    s.subblockDurations.take s.numSubblocks.toNat = s.subblockDurations ∧ s.subblockDurations.length = s.numSubblocks.toNat := by
  intro h0
  rcases hm with ⟨d, c, hc⟩ | ⟨ds, hds, hv⟩
  · obtain ⟨e1, e2, e3, e4, -⟩ := SubblockSchedule.createConstant_ok hc
    rw [e2] at h0; exact absurd h0 e4
  · obtain ⟨e1, e2, e3, -⟩ := SubblockSchedule.createVariable_ok hds hv
    exact ⟨by rw [e2, e3, List.take_length], by rw [e2, e3]⟩

theorem emits_wAll_id {g : LebGen} {α : Type} (w : α → Wr Unit) (P : α → Prop) (t : α → List Field)
    (l : List α) (h : ∀ x ∈ l, Emits g (w x) (P x) (t x)) :
    Emits g (wAll _root_.id (l.map w)) (∀ x ∈ l, P x) (l.map t).flatten := by
  induction l with
  | nil => exact Emits.ret.cast (by simp) (fun _ => rfl)
  | cons x xs ih =>
    have h2 := ih fun q hq => h q (by simp [hq])
    simp only [List.map_cons, wAll, _root_.id, List.flatten_cons]
    exact ((h x (by simp)).bind h2).cast (by simp) (fun _ => rfl)

theorem emits_schedule {g : LebGen} (s : SubblockSchedule) (hm : s.Made) : Emits g (s.write none) True (scheduleTable s []) := by
  unfold SubblockSchedule.write scheduleTable
  simp only [Wr.bind_eq, Wr.pure_eq]
  have h0 : s.constantSubblockDuration.toNat = 0 ↔ s.constantSubblockDuration = 0 := by rw [← UInt32.toNat_inj]; rfl
  by_cases h : s.constantSubblockDuration = 0
  · rw [if_neg (by simp [h]), if_pos (h0.mpr h), (made_take s hm h).1]
    exact (Emits.ret.bind (Emits.uleb.bind (Emits.uleb.bind (Emits.uleb.bind (emits_interlaced_none _))))).cast
      (by simp) (fun _ => rfl)
  · rw [if_pos h, if_neg (mt h0.mp h)]
    exact (Emits.ret.bind (Emits.uleb.bind (Emits.uleb.bind Emits.ret))).cast (by simp) (fun _ => rfl)

theorem emits_scheduleData {g : LebGen} {α : Type} (w : α → Wr Unit) (P : α → Prop) (t : α → List Field) (s : SubblockSchedule)
    (hm : s.Made) (l : List α) (h : ∀ x ∈ l, Emits g (w x) (P x) (t x)) :
    Emits g (s.write (some (l.map w))) (l.length = s.numSubblocks.toNat ∧ ∀ x ∈ l, P x) (scheduleTable s (l.map t)) := by
  unfold SubblockSchedule.write scheduleTable
  simp only [Wr.bind_eq]
  have h0 : s.constantSubblockDuration.toNat = 0 ↔ s.constantSubblockDuration = 0 := by rw [← UInt32.toNat_inj]; rfl
  refine (Emits.checkBind fun hlen => Emits.uleb.bind (Emits.uleb.bind (P2 := ∀ x ∈ l, P x)
    (t2 := if s.constantSubblockDuration.toNat = 0 then [.leb s.numSubblocks] ++ interleave s.subblockDurations (l.map t)
    else (l.map t).flatten) ?_)).cast (by simp) (fun _ => rfl)
  simp only [List.length_map, beq_iff_eq] at hlen
  by_cases hz : s.constantSubblockDuration = 0
  · rw [if_neg (by simp [hz]), if_pos (h0.mpr hz), (made_take s hm hz).1]
    exact (Emits.uleb.bind (emits_interlaced w P t _ l (by rw [(made_take s hm hz).2, hlen]) h)).cast (by simp) (fun _ => rfl)
  · rw [if_pos hz, if_neg (mt h0.mp hz)]
    exact emits_wAll_id w P t l h

/-! ### Parameter data -/

/-- The down-mix modes that exist. -/
def dmixpModes : List Nat := [0, 1, 2, 4, 5, 6]

def mixGainTable : MixGainData → List Field
  | .step s => [.leb 0, .s 16 s.toInt]
  | .linear s e => [.leb 1, .s 16 s.toInt, .s 16 e.toInt]
  | .bezier s e c t => [.leb 2, .s 16 s.toInt, .s 16 e.toInt, .s 16 c.toInt, .u 8 t.toNat]

/-- The gains whose bit in the flags is set. -/
def reconGainsTable (flag : UInt32) (gains : List UInt8) : List Field :=
  gains.zipIdx.flatMap fun x => if flag.toNat.testBit x.2 then [.u 8 x.1.toNat] else []

/-- For every layer with recon gains: the flags and the flagged gains. -/
def reconTable : List Bool → List (Option ReconGainElement) → List Field
  | true :: fs, some e :: es => [.leb e.flag] ++ (reconGainsTable e.flag e.gains ++ reconTable fs es)
  | _ :: fs, _ :: es => reconTable fs es
  | _, _ => []

def paramDataTable : ParamData → List Field
  | .mixGain d => mixGainTable d
  | .demixing d => [.u 3 d.dmixpMode.toNat, .u 5 d.reserved.toNat]
  | .reconGain flags es => reconTable flags es
  | .extension bytes => [.leb (UInt32.ofNat bytes.length), .bytes bytes]
  | .unsupported => []

/-- What is required of parameter data. -/
def ParamDataOk : ParamData → Prop
  | .mixGain _ => True
  | .demixing d => d.dmixpMode.toNat ∈ dmixpModes
  | .reconGain flags es => es.length = flags.length ∧ ∀ p ∈ flags.zip es, p.1 = true → p.2.isSome = true
  | .extension _ => True
  | .unsupported => False

theorem dmixp_iff (m : UInt8) : dmixpModeSupported m = true ↔ m.toNat ∈ dmixpModes := by
  unfold dmixpModeSupported dmixpModes
  simp only [Bool.or_eq_true, beq_iff_eq, List.mem_cons, List.not_mem_nil, or_false, ← UInt8.toNat_inj, UInt8.reduceToNat]
  simp [or_assoc]

theorem emits_demixing {g : LebGen} (d : DemixingInfo) :
    Emits g d.write (d.dmixpMode.toNat ∈ dmixpModes) [.u 3 d.dmixpMode.toNat, .u 5 d.reserved.toNat] := by
  unfold DemixingInfo.write
  refine Emits.cast (by em_auto) ?_ ?_
  · rw [dmixp_iff]; simp
  · exact fun _ => rfl

theorem emits_sized {g : LebGen} (l : List UInt8) : Emits g (wSized l) True [.leb (UInt32.ofNat l.length), .bytes l] := by
  unfold wSized
  refine Emits.cast (by em_auto) ?_ ?_
  · simp
  · exact fun _ => rfl

theorem emits_mixGain {g : LebGen} (d : MixGainData) : Emits g d.write True (mixGainTable d) := by
  cases d <;> unfold MixGainData.write mixGainTable <;>
    exact Emits.cast (by em_auto) (by simp) (by exact fun _ => rfl)

theorem emits_reconGains {g : LebGen} (flag : UInt32) (l : List UInt8) (k : Nat) (mask : UInt32)
    (hm : mask.toNat = 2 ^ k % 2 ^ 32) :
    Emits g (wReconGains flag l mask) True ((l.zipIdx k).flatMap fun x => if flag.toNat.testBit x.2 then [.u 8 x.1.toNat] else []) := by
  induction l generalizing k mask with
  | nil => exact Emits.ret
  | cons x xs ih =>
    unfold wReconGains
    have hb : (flag &&& mask ≠ 0) ↔ flag.toNat.testBit k = true := by
      rw [ne_eq, ← UInt32.toNat_inj, UInt32.toNat_and, hm]
      by_cases hk : k < 32
      · rw [Nat.mod_eq_of_lt (Nat.pow_lt_pow_right (by omega) hk)]
        constructor
        · intro h
          apply Classical.byContradiction
          intro hf
          apply h
          apply Nat.eq_of_testBit_eq
          intro i
          simp only [Nat.testBit_and, Nat.testBit_two_pow]
          by_cases hi : k = i
          · subst hi; simp at hf; simp [hf]
          · simp [hi]
        · intro h h0
          have := congrArg (fun n => Nat.testBit n k) h0
          simp [Nat.testBit_and, Nat.testBit_two_pow, h] at this
      · have hz : 2 ^ k % 2 ^ 32 = 0 := Nat.mod_eq_zero_of_dvd (Nat.pow_dvd_pow 2 (by omega))
        have : flag.toNat.testBit k = false := Nat.testBit_lt_two_pow (Nat.lt_of_lt_of_le flag.toNat_lt (Nat.pow_le_pow_right (by omega) (by omega)))
        rw [hz, this]; simp
    have hm2 : (mask <<< 1).toNat = 2 ^ (k + 1) % 2 ^ 32 := by
      rw [UInt32.toNat_shiftLeft, hm, Nat.pow_succ]
      show (2 ^ k % 2 ^ 32) <<< 1 % 2 ^ 32 = _
      rw [Nat.shiftLeft_eq]
      omega
    have h2 := ih (k + 1) (mask <<< 1) hm2
    simp only [List.zipIdx_cons, List.flatMap_cons]
    by_cases hf : flag.toNat.testBit k = true
    · rw [if_pos (hb.mpr hf), if_pos hf]
      exact (em8_8.bind h2).cast (by simp) (fun _ => rfl)
    · rw [if_neg (mt hb.mp hf), if_neg hf]
      exact (Emits.ret.bind h2).cast (by simp) (fun _ => rfl)

theorem emits_reconLayers {g : LebGen} (flags : List Bool) (es : List (Option ReconGainElement)) (hl : es.length = flags.length) :
    Emits g (wReconLayers flags es) (∀ p ∈ flags.zip es, p.1 = true → p.2.isSome = true) (reconTable flags es) := by
  induction flags generalizing es with
  | nil =>
    have : es = [] := by cases es with | nil => rfl | cons _ _ => simp at hl
    subst this
    unfold wReconLayers
    exact Emits.ret.cast (by simp) (fun _ => rfl)
  | cons f fs ih =>
    match es with
    | [] => simp at hl
    | e :: es =>
      have h2 := ih es (by simpa using hl)
      match f, e with
      | false, e =>
        unfold wReconLayers reconTable
        exact h2.cast (by simp) (fun _ => rfl)
      | true, none =>
        unfold wReconLayers
        exact (Emits.fail (t := [])).cast (by simp) (fun h => h.elim)
      | true, some e =>
        unfold wReconLayers reconTable
        exact (Emits.uleb.bind ((emits_reconGains e.flag e.gains 0 1 rfl).bind h2)).cast (by simp) (fun _ => rfl)

theorem emits_paramData {g : LebGen} (d : ParamData) : Emits g d.write (ParamDataOk d) (paramDataTable d) := by
  cases d with
  | mixGain d => exact emits_mixGain d
  | demixing d => exact emits_demixing d
  | reconGain flags es =>
    unfold ParamData.write wReconGainInfo
    simp only [Wr.bind_eq]
    refine (Emits.checkBind fun hl => emits_reconLayers flags es (by simpa using hl)).cast ?_ (fun _ => rfl)
    simp [ParamDataOk]
  | extension b => exact emits_sized b
  | unsupported => exact (Emits.fail (t := [])).cast Iff.rfl (fun h => h.elim)

/-! ### Parameter definitions -/

/-- A value clipped to a range. -/
def clipInt (lo hi v : Int) : Int := max lo (min hi v)

def paramSpecificTable : ParamSpecific → List Field
  | .mixGain g => [.s 16 g.toInt]
  | .demixing d => [.u 3 d.info.dmixpMode.toNat, .u 5 d.info.reserved.toNat, .u 4 d.defaultW.toNat, .u 4 d.reservedForFutureUse.toNat]
  | .reconGain _ => []
  | .polar a e d => [.s 9 (clipInt (-180) 180 a.toInt), .s 8 (clipInt (-90) 90 e.toInt), .u 7 d.toNat]
  | .cart8 x y z => [.s 8 x.toInt, .s 8 y.toInt, .s 8 z.toInt]
  | .cart16 x y z => [.s 16 x.toInt, .s 16 y.toInt, .s 16 z.toInt]
  | .dualPolar a1 e1 d1 a2 e2 d2 =>
    [.s 9 (clipInt (-180) 180 a1.toInt), .s 8 (clipInt (-90) 90 e1.toInt), .u 7 d1.toNat,
     .s 9 (clipInt (-180) 180 a2.toInt), .s 8 (clipInt (-90) 90 e2.toInt), .u 7 d2.toNat]
  | .dualCart8 x1 y1 z1 x2 y2 z2 => [.s 8 x1.toInt, .s 8 y1.toInt, .s 8 z1.toInt, .s 8 x2.toInt, .s 8 y2.toInt, .s 8 z2.toInt]
  | .dualCart16 x1 y1 z1 x2 y2 z2 =>
    [.s 16 x1.toInt, .s 16 y1.toInt, .s 16 z1.toInt, .s 16 x2.toInt, .s 16 y2.toInt, .s 16 z2.toInt]
  | .extended _ bytes => [.leb (UInt32.ofNat bytes.length), .bytes bytes]

/-- param_definition(): id, rate, mode (0 if the definition has a schedule), reserved bits, the schedule, and the fields of the
type; an extension definition is only its sized bytes. -/
def paramDefTable (p : ParamDef) : List Field :=
  match p.spec with
  | .extended _ _ => paramSpecificTable p.spec
  | _ => [.leb p.base.id, .leb p.base.rate, .u 1 p.base.schedule.isNone.toNat, .u 7 p.base.reserved.toNat] ++
      ((match p.base.schedule with
        | some s => scheduleTable s []
        | none => []) ++ paramSpecificTable p.spec)

/-- The rate is not zero; demixing and recon gain definitions (types 1 and 2) have one subblock that covers the duration. -/
def ParamDefValid (p : ParamDef) : Prop :=
  p.base.rate.toNat ≠ 0 ∧
  (p.spec.type.toNat = 1 ∨ p.spec.type.toNat = 2 →
    ∃ s, p.base.schedule = some s ∧ s.duration.toNat ≠ 0 ∧ s.constantSubblockDuration.toNat = s.duration.toNat)

/-- A definition that can be written. -/
def ParamDefOk (p : ParamDef) : Prop :=
  match p.spec with
  | .extended _ _ => True
  | .demixing d => ParamDefValid p ∧ d.info.dmixpMode.toNat ∈ dmixpModes
  | _ => ParamDefValid p

theorem valid_iff (p : ParamDef) : p.valid = true ↔ ParamDefValid p := by
  unfold ParamDef.valid ParamDefValid ParamBase.duration ParamBase.csd
  have h1 : p.base.rate ≠ 0 ↔ p.base.rate.toNat ≠ 0 := by rw [ne_eq, ← UInt32.toNat_inj]; rfl
  have h2 : (p.spec.type == 1 || p.spec.type == 2) = true ↔ (p.spec.type.toNat = 1 ∨ p.spec.type.toNat = 2) := by
    simp only [Bool.or_eq_true, beq_iff_eq, ← UInt32.toNat_inj]; rfl
  rw [Bool.and_eq_true, bne_iff_ne, h1]
  refine and_congr Iff.rfl ?_
  by_cases ht : (p.spec.type == 1 || p.spec.type == 2) = true
  · rw [if_pos ht]
    simp only [h2.mp ht, true_implies]
    cases p.base.schedule with
    | none => simp
    | some s => simp [← UInt32.toNat_inj]
  · rw [if_neg ht]
    simp only [mt h2.mpr ht, false_implies]

theorem clip16_toInt (v : Int16) (lo hi : Int16) (h : lo.toInt ≤ hi.toInt) : (clip16 v lo hi).toInt = clipInt lo.toInt hi.toInt v.toInt := by
  unfold clip16 clipInt
  split
  · omega
  · split <;> omega

theorem clip8_toInt (v : Int8) : (clip8 v (-90) 90).toInt = clipInt (-90) 90 v.toInt := by
  unfold clip8
  have h := clip16_toInt v.toInt16 (-90) 90 (by decide)
  rw [Int8.toInt_toInt16] at h
  have e : clipInt (-90) 90 v.toInt = clipInt (-90 : Int16).toInt (90 : Int16).toInt v.toInt := rfl
  have hb : -90 ≤ clipInt (-90) 90 v.toInt ∧ clipInt (-90) 90 v.toInt ≤ 90 := by unfold clipInt; omega
  rw [← e] at h
  rw [Int16.toInt_toInt8, h]
  rw [Int.bmod_eq_of_le] <;> omega

theorem emits_paramSpecific {g : LebGen} (s : ParamSpecific) : Emits g s.write
    (match s with | .demixing d => d.info.dmixpMode.toNat ∈ dmixpModes | _ => True) (paramSpecificTable s) := by
  have c1 : ∀ v : Int16, (clip16 v (-180) 180).toInt = clipInt (-180) 180 v.toInt := fun v => clip16_toInt v _ _ (by decide)
  cases s with
  | demixing d =>
    unfold ParamSpecific.write DefaultDemixingInfo.write
    simp only [Wr.bind_eq]
    exact ((emits_demixing d.info).bind (em8_4.bind em8_4)).cast (by simp) (fun _ => rfl)
  | extended t b => exact emits_sized b
  | reconGain f => exact Emits.ret
  | polar a e d =>
    unfold ParamSpecific.write paramSpecificTable
    refine Emits.cast (by em_auto) ?_ ?_
    · simp
    · intro _; rw [c1, clip8_toInt]; rfl
  | dualPolar a e d a2 e2 d2 =>
    unfold ParamSpecific.write paramSpecificTable
    refine Emits.cast (by em_auto) ?_ ?_
    · simp
    · intro _; rw [c1, clip8_toInt, c1, clip8_toInt]; rfl
  | _ =>
    unfold ParamSpecific.write paramSpecificTable
    refine Emits.cast (by em_auto) ?_ ?_
    · simp
    · exact fun _ => rfl

theorem emits_paramBase {g : LebGen} (p : ParamDef) (hm : p.Made) : Emits g p.writeBase (ParamDefValid p)
    ([.leb p.base.id, .leb p.base.rate, .u 1 p.base.schedule.isNone.toNat, .u 7 p.base.reserved.toNat] ++
      (match p.base.schedule with
        | some s => scheduleTable s []
        | none => [])) := by
  unfold ParamDef.writeBase
  simp only [Wr.bind_eq, Wr.pure_eq]
  have hs : Emits g (match p.base.schedule with
      | none => Wr.ret ()
      | some s => s.write none) True (match p.base.schedule with
        | some s => scheduleTable s []
        | none => []) := by
    cases h : p.base.schedule with
    | none => exact Emits.ret
    | some s => exact emits_schedule s (hm s h)
  refine (Emits.check.bind (Emits.uleb.bind (Emits.uleb.bind (em8_1.bind (em8_7.bind hs))))).cast ?_ (fun _ => ?_)
  · rw [valid_iff]; simp
  · cases p.base.schedule <;> rfl

theorem emits_paramDef {g : LebGen} (p : ParamDef) (hm : p.Made) : Emits g p.write (ParamDefOk p) (paramDefTable p) := by
  have hb := emits_paramBase (g := g) p hm
  unfold ParamDef.write ParamDefOk paramDefTable
  cases hs : p.spec with
  | extended t b => exact emits_sized b
  | demixing d =>
    have := emits_paramSpecific (g := g) (.demixing d)
    exact (hb.bind this).cast Iff.rfl (fun _ => List.append_assoc ..)
  | _ => exact (hb.bind (emits_paramSpecific (g := g) _)).cast (by simp) (fun _ => List.append_assoc ..)

/-! ### Parameter blocks -/

/-- parameter_block_obu(): the id, then either the subblocks alone, or the schedule with the subblocks. -/
def parameterBlockTable (b : ParameterBlock) : List Field :=
  [.leb b.parameterId] ++
  (let data := b.subblocks.map fun d => match d with
    | some d => paramDataTable d
    | none => []
  match b.schedule with
  | some s => scheduleTable s data
  | none => data.flatten)

/-- The definition is valid; no subblock is missing; a schedule has as many subblocks as there are. -/
def ParameterBlockOk (p : ParamDef) (b : ParameterBlock) : Prop :=
  ParamDefValid p ∧ (∀ d ∈ b.subblocks, ∃ x, d = some x ∧ ParamDataOk x) ∧
  (∀ s, b.schedule = some s → b.subblocks.length = s.numSubblocks.toNat)

theorem emits_parameterBlock {g : LebGen} (p : ParamDef) (b : ParameterBlock) (hm : ∀ s, b.schedule = some s → s.Made) :
    Emits g (b.write p) (ParameterBlockOk p b) (parameterBlockTable b) := by
  unfold ParameterBlock.write parameterBlockTable
  simp only [Wr.bind_eq]
  have hd : ∀ d : Option ParamData, Emits g (wSubblock d) (∃ x, d = some x ∧ ParamDataOk x) (match d with
      | some d => paramDataTable d
      | none => []) := by
    intro d
    cases d with
    | none => exact (Emits.fail (t := [])).cast (by simp) (fun h => h.elim)
    | some d => exact (emits_paramData d).cast (by simp) (fun _ => rfl)
  have hd2 : ∀ d : Option ParamData, Emits g (wSubblockChecked d) (∃ x, d = some x ∧ ParamDataOk x) (match d with
      | some d => paramDataTable d
      | none => []) := by
    intro d
    cases d with
    | none => exact (Emits.fail (t := [])).cast (by simp) (fun h => h.elim)
    | some d => exact (emits_paramData d).cast (by simp) (fun _ => rfl)
  cases hs : b.schedule with
  | none =>
    refine (Emits.uleb.bind (Emits.check.bind (Emits.each fun x _ => hd x))).cast ?_ (fun _ => ?_)
    · unfold ParameterBlockOk; rw [valid_iff, hs]; simp
    · simp only [List.nil_append, List.flatMap_def]
  | some s =>
    refine (Emits.uleb.bind (Emits.check.bind (emits_scheduleData _ _ _ s (hm s hs) b.subblocks fun x _ => hd2 x))).cast ?_ (fun _ => ?_)
    · unfold ParameterBlockOk; rw [valid_iff, hs]; simp [and_comm]
    · simp only [List.nil_append]

/-- **C30 (parameter block).** OBU type 3. -/
theorem C30_parameter_block (g : LebGen) (h : ObuHeader) (p : ParamDef) (b : ParameterBlock) (footer bytes : List UInt8)
    (hm : ∀ s, b.schedule = some s → s.Made) :
    Writes g (wObu { h with obuType := ObuType.parameterBlock } (b.write p) footer) bytes ↔
      ParameterBlockOk p b ∧ IsObu g { h with obuType := 3 } (parameterBlockTable b) footer bytes :=
  writes_obu footer bytes (emits_parameterBlock p b hm)

/-- Not vacuous: a mix gain block with its own schedule of two subblocks of different durations. -/
def gainBlock : ParameterBlock := ⟨9, some ⟨300, 0, 2, [100, 200]⟩, [some (.mixGain (.step 256)), some (.mixGain (.linear 256 (-2)))]⟩
example : (∀ s, gainBlock.schedule = some s → s.Made) ∧
    ParameterBlockOk ⟨⟨9, 48000, 0, none⟩, .mixGain 0⟩ gainBlock := by
  refine ⟨?_, ⟨by decide, by decide⟩, ?_, ?_⟩
  · intro s hs
    simp only [gainBlock, Option.some.injEq] at hs
    subst hs
    exact .inr ⟨[100, 200], by decide, by decide +kernel⟩
  · intro d hd
    simp only [gainBlock, List.mem_cons, List.not_mem_nil, or_false] at hd
    rcases hd with rfl | rfl <;> exact ⟨_, rfl, trivial⟩
  · intro s hs
    simp only [gainBlock, Option.some.injEq] at hs
    subst hs
    decide
example : IsObu .minimum ⟨3, false, false, 0, 0, none⟩ (parameterBlockTable gainBlock) []
    [0x18, 16, 9, 0xac, 2, 0, 2, 100, 0, 1, 0, 0xc8, 1, 1, 1, 0, 0xff, 0xfe] :=
  ⟨by decide, by decide, by decide +kernel, by decide +kernel⟩
/-- A recon gain block: flags 0b101 name the first and third gain. -/
example : IsObu .minimum ⟨3, false, false, 0, 0, none⟩ (parameterBlockTable ⟨9, none, [some (.reconGain [false, true]
    [none, some ⟨5, [7, 8, 9, 0, 0, 0, 0, 0, 0, 0, 0, 0]⟩])]⟩) [] [0x18, 4, 9, 5, 7, 9] :=
  ⟨by decide, by decide, by decide +kernel, by decide +kernel⟩

end Iamf.Props
