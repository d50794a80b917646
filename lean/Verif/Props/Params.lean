import Verif.Obu.ParamsProofs
import Verif.Props.ObuSimple
/-
  Properties of subblock schedules (C18) and of parameter definitions and parameter blocks (C12).
-/
namespace Iamf.Props
open Iamf

/-! ## C18: subblock schedules -/

/-- Specification: the schedule consists of subblocks with the durations `ds`, as seen through
`GetSubblockDuration`; they are non-zero, they add up to the total duration, and there are at least 1 and
at most 192000 of them. -/
def SchedulesExactly (s : SubblockSchedule) (ds : List UInt32) : Prop :=
  s.numSubblocks.toNat = ds.length ∧ 1 ≤ ds.length ∧ ds.length ≤ 192000 ∧
  (∀ (i : Nat) (hi : i < ds.length), s.getSubblockDuration i = .ok ds[i]) ∧
  (∀ d ∈ ds, d ≠ 0) ∧ (ds.map UInt32.toNat).sum = s.duration.toNat ∧
  (∀ i : Int, i < 0 ∨ (ds.length ≤ i ∧ i < 2147483648) → s.getSubblockDuration i = .error .invalidArgument)

private theorem sum_replicate_nat (n k : Nat) : (List.replicate n k).sum = n * k := by
  induction n with
  | zero => simp
  | succ n ih => rw [List.replicate_succ, List.sum_cons, ih, Nat.add_mul]; omega

theorem made_schedules {s : SubblockSchedule} (hm : s.Made) : ∃ ds, SchedulesExactly s ds := by
  have hout : ∀ (n : Nat), s.numSubblocks.toNat = n → n ≤ 192000 → ∀ i : Int, i < 0 ∨ (n ≤ i ∧ i < 2147483648) →
      s.getSubblockDuration i = .error .invalidArgument := by
    intro n hn hle i hi
    unfold SubblockSchedule.getSubblockDuration
    rw [if_pos]
    rcases hi with hi | hi
    · exact .inl hi
    · refine .inr ?_
      rw [ge_iff_le, UInt32.le_iff_toNat_le, UInt32.toNat_ofNat', hn]
      omega
  rcases hm with ⟨d, c, h⟩ | ⟨l, hl, h⟩
  · obtain ⟨rfl, rfl, h3, hc, hd, hcd, h1, h2, hlo, hhi⟩ := SubblockSchedule.createConstant_ok h
    have hcn : s.constantSubblockDuration.toNat ≠ 0 := fun he => hc (UInt32.toNat_inj.mp he)
    refine ⟨List.replicate (s.numSubblocks.toNat - 1) s.constantSubblockDuration ++
      [s.duration - (s.numSubblocks - 1) * s.constantSubblockDuration], ?_⟩
    have hlen : (List.replicate (s.numSubblocks.toNat - 1) s.constantSubblockDuration ++
      [s.duration - (s.numSubblocks - 1) * s.constantSubblockDuration]).length = s.numSubblocks.toNat := by
      simp; omega
    have hn1 : (s.numSubblocks - 1).toNat = s.numSubblocks.toNat - 1 := by
      rw [UInt32.toNat_sub_of_le]
      · rfl
      · rw [UInt32.le_iff_toNat_le]; exact h1
    have hdl := s.duration.toNat_lt
    have hmul : ((s.numSubblocks - 1) * s.constantSubblockDuration).toNat =
        (s.numSubblocks.toNat - 1) * s.constantSubblockDuration.toNat := by
      rw [UInt32.toNat_mul, hn1, Nat.mod_eq_of_lt]
      omega
    have hlast : (s.duration - (s.numSubblocks - 1) * s.constantSubblockDuration).toNat =
        s.duration.toNat - (s.numSubblocks.toNat - 1) * s.constantSubblockDuration.toNat := by
      rw [UInt32.toNat_sub_of_le, hmul]
      rw [UInt32.le_iff_toNat_le, hmul]; omega
    refine ⟨hlen.symm, by omega, by omega, ?_, ?_, ?_, ?_⟩
    · intro i hi
      rw [hlen] at hi
      unfold SubblockSchedule.getSubblockDuration
      have hof : (UInt32.ofNat (i : Int).toNat).toNat = i := by
        rw [UInt32.toNat_ofNat']; omega
      rw [if_neg, if_neg hc]
      · by_cases hlast' : i = s.numSubblocks.toNat - 1
        · rw [if_pos]
          · subst hlast'
            simp
          · apply UInt32.toNat_inj.mp; rw [hof, hn1, hlast']
        · rw [if_neg]
          · rw [List.getElem_append_left (by simp; omega)]
            simp
          · intro he
            have := congrArg UInt32.toNat he
            rw [hof, hn1] at this
            exact hlast' this
      · rintro (h0 | h0)
        · omega
        · rw [ge_iff_le, UInt32.le_iff_toNat_le, hof] at h0; omega
    · intro x hx
      simp only [List.mem_append, List.mem_replicate, List.mem_singleton] at hx
      rcases hx with ⟨-, rfl⟩ | rfl
      · exact hc
      · intro he
        have := congrArg UInt32.toNat he
        rw [hlast, show (0 : UInt32).toNat = 0 from rfl] at this
        omega
    · simp only [List.map_append, List.map_replicate, List.map_cons, List.map_nil, List.sum_append, List.sum_cons,
        List.sum_nil, sum_replicate_nat]
      rw [hlast]; omega
    · rw [hlen]; exact hout _ rfl h2
  · obtain ⟨e1, e2, e3, e4, e5, e6, e7⟩ := SubblockSchedule.createVariable_ok hl h
    refine ⟨l, e3, e4, e5, ?_, e6, e7.symm, hout _ e3 e5⟩
    intro i hi
    unfold SubblockSchedule.getSubblockDuration
    have hof : (UInt32.ofNat (i : Int).toNat).toNat = i := by
      rw [UInt32.toNat_ofNat']; omega
    rw [if_neg, if_pos e1]
    · simp only [Int.toNat_natCast, e2, List.getElem?_eq_getElem hi]
    · rintro (h0 | h0)
      · omega
      · rw [ge_iff_le, UInt32.le_iff_toNat_le, hof, e3] at h0; omega

/-- **C18 (factories).** Every schedule the two factories return, from any arguments (any duration and
constant subblock duration; any vector with fewer than 2^32 entries), schedules its duration exactly. -/
theorem C18_created_schedules_add_up :
    (∀ duration csd s, SubblockSchedule.createConstant duration csd = .ok s →
      s.duration = duration ∧ ∃ ds, SchedulesExactly s ds ∧ ∀ d ∈ ds.dropLast, d = csd) ∧
    (∀ durations s, durations.length < 4294967296 → SubblockSchedule.createVariable durations = .ok s →
      SchedulesExactly s durations) := by
  constructor
  · intro duration csd s h
    obtain ⟨ds, hds⟩ := made_schedules (.inl ⟨duration, csd, h⟩)
    obtain ⟨e1, e2, -, hc, -, -, h1, h2, -, -⟩ := SubblockSchedule.createConstant_ok h
    refine ⟨e1, ds, hds, ?_⟩
    intro d hd
    obtain ⟨i, hi, rfl⟩ := List.getElem_of_mem hd
    rw [List.length_dropLast] at hi
    rw [List.getElem_dropLast]
    have hg := hds.2.2.2.1 i (by omega)
    have hn := hds.1
    unfold SubblockSchedule.getSubblockDuration at hg
    have hof : (UInt32.ofNat (i : Int).toNat).toNat = i := by
      rw [UInt32.toNat_ofNat']; omega
    have hn1 : (s.numSubblocks - 1).toNat = s.numSubblocks.toNat - 1 := by
      rw [UInt32.toNat_sub_of_le]
      · rfl
      · rw [UInt32.le_iff_toNat_le]; exact h1
    rw [if_neg, if_neg (e2 ▸ hc), if_neg] at hg
    · simp only [Except.ok.injEq] at hg
      rw [← hg]; exact e2
    · intro he
      have := congrArg UInt32.toNat he
      rw [hof, hn1] at this
      omega
    · rintro (h0 | h0)
      · omega
      · rw [ge_iff_le, UInt32.le_iff_toNat_le, hof] at h0; omega
  · intro l s hl h
    obtain ⟨ds, hds⟩ := made_schedules (.inr ⟨l, hl, h⟩)
    obtain ⟨e1, e2, e3, -⟩ := SubblockSchedule.createVariable_ok hl h
    have : ds = l := by
      apply List.ext_getElem
      · rw [← hds.1, e3]
      · intro i h1 h2
        have hg := hds.2.2.2.1 i h1
        unfold SubblockSchedule.getSubblockDuration at hg
        have hof : (UInt32.ofNat (i : Int).toNat).toNat = i := by
          rw [UInt32.toNat_ofNat']
          have := hds.2.2.1
          omega
        rw [if_neg, if_pos e1] at hg
        · simp only [Int.toNat_natCast, e2, List.getElem?_eq_getElem h2, Except.ok.injEq] at hg
          exact hg.symm
        · rintro (h0 | h0)
          · omega
          · rw [ge_iff_le, UInt32.le_iff_toNat_le, hof, e3] at h0; omega
    subst this
    exact hds

/-- Not vacuous: 10 ticks in subblocks of 4, and three subblocks of different lengths. -/
example : SubblockSchedule.createConstant 10 4 = .ok ⟨10, 4, 3, []⟩ := by decide +kernel
example : SubblockSchedule.createVariable [5, 1, 9] = .ok ⟨15, 0, 3, [5, 1, 9]⟩ := by decide +kernel

/-- **C18 (reader).** Every schedule that can be read from any bytes schedules its duration exactly. -/
theorem C18_read_schedules_add_up (src : List UInt8) (cap : Nat) (pv : Bool) (hc : 0 < cap) (s : SubblockSchedule)
    (hr : (SubblockSchedule.read.run (RBuf.create cap src pv)).1 = .ok s) : ∃ ds, SchedulesExactly s ds := by
  have href := C03_read_buffer_is_cursor SubblockSchedule.read src cap pv (.inl hc)
  rw [href.1] at hr
  have := SubblockSchedule.sf_read ⟨bytesBits src, 0, pv⟩
  rw [hr] at this
  exact made_schedules this

/-- Not vacuous: duration 300, two subblocks of 172 and 128 ticks. -/
example : (SubblockSchedule.read.run (RBuf.create 3 [0xac, 2, 0, 2, 0xac, 1, 0x80, 1] true)).1 =
    .ok ⟨300, 0, 2, [172, 128]⟩ := by decide +kernel

/-- **C18 (factory accepts exactly the meaningful arguments).** A constant schedule is created iff the
subblock duration is non-zero and at most the total, and at most 192000 subblocks result; otherwise the
factory returns InvalidArgument. -/
theorem C18_constant_accepts_iff (duration csd : UInt32) :
    ((∃ s, SubblockSchedule.createConstant duration csd = .ok s) ↔
      0 < csd.toNat ∧ csd.toNat ≤ duration.toNat ∧ duration.toNat ≤ 192000 * csd.toNat) ∧
    ((∀ s, SubblockSchedule.createConstant duration csd ≠ .ok s) →
      SubblockSchedule.createConstant duration csd = .error .invalidArgument) := by
  constructor
  · constructor
    · rintro ⟨s, hs⟩
      obtain ⟨-, -, -, hc, -, hcd, h1, h2, hlo, hhi⟩ := SubblockSchedule.createConstant_ok hs
      have hcn : csd.toNat ≠ 0 := fun he => hc (UInt32.toNat_inj.mp he)
      refine ⟨by omega, hcd, ?_⟩
      exact Nat.le_trans hhi (Nat.mul_le_mul_right _ h2)
    · rintro ⟨hc, hcd, hn⟩
      unfold SubblockSchedule.createConstant
      have hc0 : csd ≠ 0 := by rintro rfl; simp at hc
      have hd0 : duration ≠ 0 := by
        rintro rfl
        rw [show (0 : UInt32).toNat = 0 from rfl] at hcd; omega
      rw [if_neg hd0, if_neg hc0, if_neg (by rw [gt_iff_lt, UInt32.lt_iff_toNat_lt]; omega)]
      have hdm := Nat.div_add_mod duration.toNat csd.toNat
      have hml := Nat.mod_lt duration.toNat hc
      have hdiv : 1 ≤ duration.toNat / csd.toNat := Nat.div_pos hcd hc
      have hcm := Nat.mul_comm csd.toNat (duration.toNat / csd.toNat)
      have hk : kMaxNumSubblocks.toNat = 192000 := rfl
      have h1 : (1 : UInt32).toNat = 1 := rfl
      have hle : duration.toNat / csd.toNat ≤ 192000 := Nat.div_le_of_le_mul (by rw [Nat.mul_comm]; exact hn)
      have hq : (if duration % csd ≠ 0 then duration / csd + 1 else duration / csd).toNat =
          if duration.toNat % csd.toNat ≠ 0 then duration.toNat / csd.toNat + 1 else duration.toNat / csd.toNat := by
        by_cases hm : duration % csd = 0
        · have hm' : duration.toNat % csd.toNat = 0 := by
            have := congrArg UInt32.toNat hm
            rw [UInt32.toNat_mod] at this; exact this
          rw [if_neg (by simp [hm]), if_neg (by simp [hm']), UInt32.toNat_div]
        · have hm' : duration.toNat % csd.toNat ≠ 0 := by
            intro he
            exact hm (UInt32.toNat_inj.mp (by rw [UInt32.toNat_mod]; exact he))
          rw [if_pos hm, if_pos hm', UInt32.toNat_add, UInt32.toNat_div, h1]
          omega
      have hin : inRange32 (if duration % csd ≠ 0 then duration / csd + 1 else duration / csd) 1 kMaxNumSubblocks = true := by
        simp only [inRange32, Bool.and_eq_true, decide_eq_true_eq]
        rw [UInt32.le_iff_toNat_le, UInt32.le_iff_toNat_le, hq, hk, h1]
        split
        next hm =>
          refine ⟨by omega, ?_⟩
          rcases Nat.lt_or_ge (duration.toNat / csd.toNat) 192000 with h | h
          · omega
          · exfalso
            have h' : duration.toNat / csd.toNat = 192000 := by omega
            rw [h'] at hdm hcm
            omega
        next hm => exact ⟨hdiv, hle⟩
      simp only [hin, ↓reduceIte]
      exact ⟨_, rfl⟩
  · intro h
    match hx : SubblockSchedule.createConstant duration csd with
    | .ok s => exact absurd hx (h s)
    | .error e => rw [SubblockSchedule.createConstant_err hx]

/-! ## C12: parameter definitions and parameter blocks -/

/-- The part of a parameter's data that the bitstream carries.  Everything except recon gains is carried
completely; of a recon gain, the layers marked present and, within them, the gains whose flag bit is set. -/
def carried : ParamData → ParamData
  | .reconGain present layers => .reconGain present (List.zipWith
      (fun (p : Bool) (l : Option ReconGainElement) =>
        if p then l.map fun e => ⟨e.flag, e.gains.mapIdx fun i x => if e.flag.toNat.testBit i then x else 0⟩ else none)
      present layers)
  | d => d

private theorem carried_eq (d : ParamData) : d.normalized = carried d := by
  cases d <;> rfl

/-- Specification: `b` is a block created for the definition `p` whose subblocks have been filled with
`data` — one per subblock of the schedule — of the definition's parameter type. -/
def IsBlockFor (p : ParamDef) (b : ParameterBlock) (data : List ParamData) : Prop :=
  b.parameterId = p.base.id ∧ b.subblocks = data.map some ∧ (∀ d ∈ data, d.Matches p.spec) ∧
  match p.base.schedule with
  | some s => b.schedule = none ∧ data.length = s.numSubblocks.toNat
  | none => ∃ s, b.schedule = some s ∧ s.Made

/-- **C12 (parameter block round trip).** For every definition — both modes, every parameter type — and
every block for it, with any number of subblocks, any OBU header flags, footer and leb generator: if
writing succeeds then reading it back under the same definition yields the same id, schedule and data
(up to recon gains that are not flagged). -/
theorem C12_parameter_block_round_trip (g : LebGen) (p : ParamDef) (h : ObuHeader) (b : ParameterBlock)
    (data : List ParamData) (footer bytes : List UInt8) (hb : IsBlockFor p b data)
    (hte : h.trimEnd = 0) (hts : h.trimStart = 0)
    (hw : Writes g (wObu h (b.write p) footer) bytes) :
    ReadsBack (rObu fun _ => ParameterBlock.read p) bytes
      (h, ⟨b.parameterId, b.schedule, data.map fun d => some (carried d)⟩, footer) := by
  obtain ⟨h1, h2, h3, h4⟩ := hb
  have := ReadsBack.obu' (derived := fun _ => ParameterBlock.read p) hte hts (ParameterBlock.rt g p b data footer h1 h2
    (by intro s hs; rw [hs] at h4; exact h4) (by intro hs; rw [hs] at h4; exact h4) h3) hw
  rw [List.map_map] at this
  have e : (some ∘ ParamData.normalized) = fun d => some (carried d) := by
    funext d; simp [carried_eq]
  rw [e] at this
  exact this

/-- Not vacuous: mode 0, two demixing subblocks is impossible (one subblock is required), so mix gains:
a mode 0 mix gain definition with two subblocks of 5 and 3 ticks, and a mode 1 block. -/
example : IsBlockFor ⟨⟨7, 48000, 0, some ⟨8, 5, 2, []⟩⟩, .mixGain 0⟩
    ⟨7, none, [some (.mixGain (.step 5)), some (.mixGain (.linear 1 2))]⟩ [.mixGain (.step 5), .mixGain (.linear 1 2)] := by
  refine ⟨rfl, rfl, ?_, rfl, rfl⟩
  intro d hd
  simp only [List.mem_cons, List.not_mem_nil, or_false] at hd
  rcases hd with rfl | rfl <;> trivial
example : Writes .minimum (wObu ⟨3, false, false, 0, 0, none⟩ (ParameterBlock.write
      ⟨⟨7, 48000, 0, some ⟨8, 5, 2, []⟩⟩, .mixGain 0⟩
      ⟨7, none, [some (.mixGain (.step 5)), some (.mixGain (.linear 1 2))]⟩) [])
    [0x18, 9, 7, 0, 0, 5, 1, 0, 1, 0, 2] :=
  ⟨⟨.minimum, [0x18, 9, 7, 0, 0, 5, 1, 0, 1, 0, 2], 88⟩, by decide +kernel, rfl, rfl⟩
example : IsBlockFor ⟨⟨7, 48000, 0, none⟩, .mixGain 0⟩ ⟨7, some ⟨8, 5, 2, []⟩, [some (.mixGain (.step 5)), some (.mixGain (.step 2))]⟩
    [.mixGain (.step 5), .mixGain (.step 2)] := by
  refine ⟨rfl, rfl, ?_, _, rfl, .inl ⟨8, 5, by decide +kernel⟩⟩
  intro d hd
  simp only [List.mem_cons, List.not_mem_nil, or_false] at hd
  rcases hd with rfl | rfl <;> trivial
example : Writes .minimum (wObu ⟨3, false, false, 0, 0, none⟩ (ParameterBlock.write ⟨⟨7, 48000, 0, none⟩, .mixGain 0⟩
      ⟨7, some ⟨8, 5, 2, []⟩, [some (.mixGain (.step 5)), some (.mixGain (.step 2))]⟩) [])
    [0x18, 9, 7, 8, 5, 0, 0, 5, 0, 0, 2] :=
  ⟨⟨.minimum, [0x18, 9, 7, 8, 5, 0, 0, 5, 0, 0, 2], 88⟩, by decide +kernel, rfl, rfl⟩

/-- **C12 (reader).** A block that is read successfully, from any bytes, under any definition, belongs to
that definition: same id, one data object of the right type per subblock. -/
theorem C12_read_block_matches_definition (p : ParamDef) (n : Int) (src : List UInt8) (cap : Nat) (pv : Bool) (hc : 0 < cap)
    (b : ParameterBlock) (hr : ((ParameterBlock.read p n).run (RBuf.create cap src pv)).1 = .ok b) :
    ∃ data, IsBlockFor p b data ∧ 0 < p.base.rate.toNat ∧
      (∀ s, b.schedule = some s → data.length = s.numSubblocks.toNat) := by
  have href := C03_read_buffer_is_cursor (ParameterBlock.read p n) src cap pv (.inl hc)
  rw [href.1] at hr
  have := ParameterBlock.sf p n ⟨bytesBits src, 0, pv⟩
  rw [hr] at this
  obtain ⟨h1, hv, data, h2, h3, h4, h5⟩ := this
  refine ⟨data, ⟨h1, h2, h3, ?_⟩, ?_, ?_⟩
  · cases hs : p.base.schedule with
    | some s => exact h4 s hs
    | none =>
      obtain ⟨s, e1, e2, -⟩ := h5 hs
      exact ⟨s, e1, e2⟩
  · simp only [ParamDef.valid, Bool.and_eq_true, bne_iff_ne, ne_eq] at hv
    have : p.base.rate.toNat ≠ 0 := fun he => hv.1 (UInt32.toNat_inj.mp he)
    omega
  · intro s hs
    cases hp : p.base.schedule with
    | some s' =>
      have := (h4 s' hp).1
      rw [this] at hs; simp at hs
    | none =>
      obtain ⟨s', e1, -, e3⟩ := h5 hp
      rw [e1] at hs
      simp only [Option.some.injEq] at hs
      subst hs
      exact e3


/-! ### Parameter definitions -/

/-- The part of a definition that the bitstream carries: extended definitions carry only their bytes,
recon gain definitions none of the auxiliary data, and polar angles are clipped to ±180 and ±90 degrees. -/
def carriedDef (p : ParamDef) : ParamDef :=
  match p.spec with
  | .extended t bytes => ⟨⟨0, 0, 0, none⟩, .extended t bytes⟩
  | .reconGain _ => ⟨p.base, .reconGain []⟩
  | .polar a e d => ⟨p.base, .polar (clip16 a (-180) 180) (clip8 e (-90) 90) d⟩
  | .dualPolar a1 e1 d1 a2 e2 d2 => ⟨p.base, .dualPolar (clip16 a1 (-180) 180) (clip8 e1 (-90) 90) d1
      (clip16 a2 (-180) 180) (clip8 e2 (-90) 90) d2⟩
  | s => ⟨p.base, s⟩

/-- **C12 (definition round trip).** Every parameter definition of a known type that is written
successfully is read back with the same id, rate, mode, reserved bits, schedule and defaults. -/
theorem C12_definition_round_trip (g : LebGen) (p : ParamDef) (bytes : List UInt8)
    (hs : ∀ s, p.base.schedule = some s → s.Made) (he : ∀ t b, p.spec ≠ .extended t b)
    (hw : Writes g p.write bytes) : ReadsBack (rParamDef p.spec.type) bytes (carriedDef p) := by
  have := ReadsBack.of_rt (rt_paramDef g p hs he) hw
  have e : p.normalized = carriedDef p := by
    obtain ⟨b, s⟩ := p
    cases s <;> first | rfl | exact absurd rfl (he _ _)
  rw [e] at this
  exact this

/-- **C12 (extended definition round trip).** -/
theorem C12_extended_definition_round_trip (g : LebGen) (b : ParamBase) (t : UInt32) (bytes out : List UInt8)
    (hl : bytes.length ≤ 2097152) (hw : Writes g (ParamDef.write ⟨b, .extended t bytes⟩) out) :
    ReadsBack (rExtendedParamDef t) out (carriedDef ⟨b, .extended t bytes⟩) :=
  ReadsBack.of_rt (rt_extendedParamDef g b t bytes hl) hw

example : Writes .minimum (ParamDef.write ⟨⟨1, 16000, 3, some ⟨9, 9, 1, []⟩⟩, .demixing ⟨⟨2, 1⟩, 10, 0⟩⟩)
    [1, 0x80, 0x7d, 3, 9, 9, 0x41, 0xa0] :=
  ⟨⟨.minimum, [1, 0x80, 0x7d, 3, 9, 9, 0x41, 0xa0], 64⟩, by decide +kernel, rfl, rfl⟩
example : Writes .minimum (ParamDef.write ⟨⟨1, 16000, 3, none⟩, .polar 179 (-5) 9⟩)
    [1, 0x80, 0x7d, 0x83, 0x59, 0xfd, 0x89] :=
  ⟨⟨.minimum, [1, 0x80, 0x7d, 0x83, 0x59, 0xfd, 0x89], 56⟩, by decide +kernel, rfl, rfl⟩

/-- **C12 (finding).** The reader does not validate a mode 1 definition: one with rate 0 is accepted, and
so is a demixing definition without the single subblock that the writer insists on. Writing back what was
read then fails. -/
theorem C12_mode1_definition_unchecked :
    ((rParamDef 1).run (RBuf.create 5 [1, 0, 0x80, 0x40, 0] true)).1 =
      .ok ⟨⟨1, 0, 0, none⟩, .demixing ⟨⟨2, 0⟩, 0, 0⟩⟩ ∧
    ((ParamDef.write ⟨⟨1, 0, 0, none⟩, .demixing ⟨⟨2, 0⟩, 0, 0⟩⟩).eval .minimum).1 = .error .invalidArgument := by
  decide +kernel

/-- **C12 (finding).** Blocks of a definition of an extended type can never be read: such a definition,
as read from a stream, has rate 0, and the reader of the block validates the definition first. -/
theorem C12_extended_blocks_unreadable (t : UInt32) (bytes : List UInt8) (n : Int) (src : List UInt8) (cap : Nat)
    (pv : Bool) (hc : 0 < cap) :
    ((ParameterBlock.read (carriedDef ⟨⟨0, 0, 0, none⟩, .extended t bytes⟩) n).run (RBuf.create cap src pv)).1 =
      .error .invalidArgument := by
  have href := C03_read_buffer_is_cursor
    (ParameterBlock.read (carriedDef ⟨⟨0, 0, 0, none⟩, .extended t bytes⟩) n) src cap pv (.inl hc)
  rw [href.1]
  rfl

/-- **C12 (finding).** A recon gain whose flag bit is not set is not carried: it reads back as zero. -/
theorem C12_unflagged_recon_gain_lost :
    carried (.reconGain [true] [some ⟨2, [9, 8, 7, 0, 0, 0, 0, 0, 0, 0, 0, 0]⟩]) =
      .reconGain [true] [some ⟨2, [0, 8, 0, 0, 0, 0, 0, 0, 0, 0, 0, 0]⟩] := by decide +kernel

end Iamf.Props
