import Verif.Cli.BlockGenerator
import Verif.Props.Output
import Verif.Props.Params
import Verif.Props.TemporalUnit
/-
  C45: parameter blocks are what their metadata say.
-/
namespace Iamf.Props
open Iamf

/-! ### The specification -/

/-- The same kind of animation with the same numbers. -/
def SameGain : GainMetadata → MixGainData → Prop
  | .step s, .step s' => s'.toInt = s.toInt
  | .linear s e, .linear s' e' => s'.toInt = s.toInt ∧ e'.toInt = e.toInt
  | .bezier s e c t, .bezier s' e' c' t' => s'.toInt = s.toInt ∧ e'.toInt = e.toInt ∧ c'.toInt = c.toInt ∧ t'.toNat = t.toNat
  | _, _ => False

/-- The mode that the metadata count from 1, and the reserved bits. -/
def SameMode (mode reserved : UInt32) (x : DemixingInfo) : Prop :=
  x.dmixpMode.toNat + 1 = mode.toNat ∧ x.dmixpMode.toNat < 8 ∧ x.reserved.toNat = reserved.toNat

/-- The recon gains of a layer are exactly the given ones: at these positions, with these values. -/
structure HasGains (given : List (Nat × UInt8)) (e : ReconGainElement) : Prop where
  length : e.gains.length = 12
  positions : ∀ p ∈ given, p.1 < 12
  flag : ∀ k, e.flag.toNat.testBit k = given.any fun p => p.1 = k
  gain : ∀ p ∈ given, e.gains[p.1]? = some p.2
  others : ∀ k < 12, (∀ p ∈ given, p.1 ≠ k) → e.gains[k]? = some 0

/-- The byte for a gain: 255 times the gain, rounded down. -/
def GainByte (x : Rat) (b : UInt8) : Prop :=
  (0 ≤ x ∧ (b.toNat : Rat) ≤ x * 255 ∧ x * 255 < b.toNat + 1) ∨ (x < 0 ∧ -1 < x * 255 ∧ b = 0)

/-- The channels that a layer has by demixing. -/
def demixedIn (below layer : ChannelNumbers) : List Label :=
  (if below.surround = 1 ∧ 2 ≤ layer.surround then [.demixedR2] else []) ++
  (if below.surround < 3 ∧ 3 ≤ layer.surround then [.demixedL3, .demixedR3] else []) ++
  (if below.surround < 5 ∧ 5 ≤ layer.surround then [.demixedLs5, .demixedRs5] else []) ++
  (if below.surround < 7 ∧ 7 ≤ layer.surround then [.demixedL7, .demixedR7, .demixedLrs7, .demixedRrs7] else []) ++
  (if below.height = 2 ∧ layer.height = 2 ∧ below.surround = 3 ∧ 3 < layer.surround then [.demixedLtf2, .demixedRtf2] else []) ++
  (if below.height = 2 ∧ layer.height = 4 then [.demixedLtb4, .demixedRtb4] else [])

/-- The channels with recon gains, in the order of the standard: L, C, R, Ls, Rs, Ltf, Rtf, Lrs, Rrs, Ltb, Rtb, LFE. -/
def reconOrder : List (List Label) :=
  [[.demixedL3, .demixedL5, .demixedL7], [], [.demixedR2, .demixedR3, .demixedR5, .demixedR7], [.demixedLs5], [.demixedRs5], [.demixedLtf2], [.demixedRtf2],
    [.demixedLrs7], [.demixedRrs7], [.demixedLtb4], [.demixedRtb4], []]

/-- The recon gain of a demixed channel, with its place. -/
def IsGainOf (gain : Label → Except Err Rat) (l : Label) (p : Nat × UInt8) : Prop :=
  (∃ ls, reconOrder[p.1]? = some ls ∧ l ∈ ls) ∧ ∃ x, gain l = .ok x ∧ GainByte x p.2

/-- The recon gains of a layer that is demixed from the one below are those that were measured. -/
structure IsMeasured (gain : Label → Except Err Rat) (below layer : ChannelNumbers) (e : ReconGainElement) : Prop where
  some_demixed : demixedIn below layer ≠ []
  gains : ∃ given, List.Forall₂ (IsGainOf gain) (demixedIn below layer) given ∧ HasGains given e

/-- The recon gains of layer `i` are those that the user gives, if the definition has recon gains for it.  Unless the user has asked to override
them, they are also those that were measured. -/
def SameLayer (override : Bool) (source : UInt32 → ReconSource) (element : UInt32) (layers : List ChannelNumbers) (user : List (List (UInt32 × UInt32)))
    (i : Nat) (flag : Bool) (e : Option ReconGainElement) : Prop :=
  if flag then
    ∃ given g, user[i]? = some given ∧ e = some g ∧ HasGains (given.map fun p => (p.1.toNat, p.2.toUInt8)) g ∧
      (override = false → ∃ gain below layer, (source element).gain = some gain ∧ 0 < i ∧ layers[i - 1]? = some below ∧ layers[i]? = some layer ∧
        IsMeasured gain below layer g)
  else e = none

/-- The recon gains in the metadata of a subblock. -/
def layersIn : SubblockContent → List (List (UInt32 × UInt32))
  | .reconGain l => l
  | _ => []

/-- The data of a subblock are what its metadata say. -/
def Says (override : Bool) (source : UInt32 → ReconSource) (d : ParamEntry) (m : SubblockMetadata) (x : ParamData) : Prop :=
  match d.1.spec with
  | .mixGain _ => ∃ g y, m.content = .mixGain g ∧ x = .mixGain y ∧ SameGain g y
  | .demixing _ => ∃ mode reserved y, m.content = .demixing mode reserved ∧ x = .demixing y ∧ SameMode mode reserved y
  | .reconGain flags => ∃ es, x = .reconGain flags es ∧ es.length = flags.length ∧
      (1 < flags.length → (layersIn m.content).length = flags.length) ∧
      ∀ i flag e, flags[i]? = some flag → es[i]? = some e →
        SameLayer override source (d.2.getD (0, [])).1 (d.2.getD (0, [])).2 (layersIn m.content) i flag e
  | _ => False

/-- The keys of a map in a message are distinct. -/
def DistinctKeys (m : SubblockMetadata) : Prop := ∀ l ∈ layersIn m.content, (l.map Prod.fst).Nodup

/-- The layers of the definition have at most seven surround channels, and no layer adds two demixed channels that have the same place: R2 and R3 (from
mono to three or more surround channels), or L3 and L7 (from two or fewer to seven). -/
def OnePerPlace (d : ParamEntry) : Prop :=
  ∀ i below layer, (d.2.getD (0, [])).2[i]? = some below → (d.2.getD (0, [])).2[i + 1]? = some layer →
    layer.surround ≤ 7 ∧ (below.surround ≤ 1 → layer.surround < 3) ∧ (below.surround ≤ 2 → layer.surround < 7)

/-- The schedule that the metadata ask for: subblocks of a constant duration, of which the last may be shorter, or of the durations of the
subblocks. -/
def MetadataSchedule (b : BlockMetadata ObuHeader) (s : SubblockSchedule) : Prop :=
  s.duration = b.duration ∧ s.constantSubblockDuration = b.constantSubblockDuration ∧ s.numSubblocks.toNat = b.subblocks.length ∧
  1 ≤ b.subblocks.length ∧ b.subblocks.length ≤ 192000 ∧
  if b.constantSubblockDuration ≠ 0 then s.subblockDurations = [] ∧ b.constantSubblockDuration ≤ b.duration ∧
    (b.subblocks.length - 1) * b.constantSubblockDuration.toNat < b.duration.toNat ∧ b.duration.toNat ≤ b.subblocks.length * b.constantSubblockDuration.toNat
  else s.subblockDurations = b.subblocks.map (·.duration) ∧ (∀ m ∈ b.subblocks, m.duration ≠ 0) ∧
    ((b.subblocks.map (·.duration)).map UInt32.toNat).sum = b.duration.toNat

/-- What holds for all metadata: the keys of maps are distinct, and a message has fewer than 2^32 subblocks. -/
def ProperMetadata (b : BlockMetadata ObuHeader) : Prop := (∀ m ∈ b.subblocks, DistinctKeys m) ∧ b.subblocks.length < 4294967296

/-- A parameter block is what its metadata say: it has their header and start, the schedule of the definition or, if that has none, the one of the
metadata, and their subblocks. -/
structure SaysBlock (override : Bool) (source : UInt32 → ReconSource) (definitions : List (UInt32 × ParamEntry)) (b : BlockMetadata ObuHeader)
    (o : BlockWithData) : Prop where
  definition : ∃ d, definitions.lookup b.id = some d ∧ o.definition = d.1 ∧ o.obu.parameterId = d.1.base.id ∧
    (match d.1.base.schedule with
      | some s => o.obu.schedule = none ∧ s.numSubblocks.toNat = b.subblocks.length ∧ o.stop = o.start + s.duration.toNat
      | none => ∃ s, o.obu.schedule = some s ∧ MetadataSchedule b s ∧ o.stop = o.start + b.duration.toNat) ∧
    List.Forall₂ (fun m x => ∃ y, x = some y ∧ Says override source d m y) b.subblocks o.obu.subblocks
  start : o.start = b.start
  header : o.header = { b.header with obuType := 3 }

/-! ### Placing gains -/

/-- What both loops do. -/
private def place : List (Nat × UInt8) → UInt32 × List UInt8 → UInt32 × List UInt8
  | [], r => r
  | (p, x) :: rest, (flag, gains) => place rest (flag ||| (1 <<< UInt32.ofNat p), gains.set p x)

private theorem shifted {k : Nat} (h : k < 12) : ((1 : UInt32) <<< UInt32.ofNat k).toNat = 2 ^ k := by
  have : ∀ k < 12, ((1 : UInt32) <<< UInt32.ofNat k).toNat = 2 ^ k := by decide
  exact this k h

private theorem place_spec (ps : List (Nat × UInt8)) : ∀ (f : UInt32) (g : List UInt8), (∀ p ∈ ps, p.1 < 12) → g.length = 12 → (ps.map Prod.fst).Nodup →
    (place ps (f, g)).2.length = 12 ∧ (∀ k, (place ps (f, g)).1.toNat.testBit k = (f.toNat.testBit k || ps.any fun p => p.1 = k)) ∧
    (∀ p ∈ ps, (place ps (f, g)).2[p.1]? = some p.2) ∧ (∀ k, (∀ p ∈ ps, p.1 ≠ k) → (place ps (f, g)).2[k]? = g[k]?) := by
  induction ps with
  | nil => intro f g _ hg _; exact ⟨hg, fun k => by simp [place], fun p hp => (by cases hp), fun _ _ => rfl⟩
  | cons p ps ih =>
    intro f g hp hg hn
    obtain ⟨i, x⟩ := p
    have hi : i < 12 := hp (i, x) (List.mem_cons_self ..)
    rw [List.map_cons, List.nodup_cons] at hn
    obtain ⟨h1, h2, h3, h4⟩ := ih (f ||| (1 <<< UInt32.ofNat i)) (g.set i x) (fun q hq => hp q (List.mem_cons_of_mem _ hq)) (by rw [List.length_set]; exact hg) hn.2
    refine ⟨h1, fun k => ?_, fun q hq => ?_, fun k hk => ?_⟩
    · show (place ps _).1.toNat.testBit k = _
      rw [h2 k, UInt32.toNat_or, Nat.testBit_or, shifted hi, Nat.testBit_two_pow, List.any_cons]
      simp only [Bool.or_assoc]
    · show (place ps _).2[q.1]? = _
      rcases List.mem_cons.mp hq with e | hq'
      · subst e
        rw [h4 i, List.getElem?_set_self (by omega)]
        intro q' hq' he
        have hm := List.mem_map_of_mem (f := Prod.fst) hq'
        rw [he] at hm
        exact hn.1 hm
      · exact h3 q hq'
    · show (place ps _).2[k]? = _
      rw [h4 k fun q hq => hk q (List.mem_cons_of_mem _ hq)]
      have := hk (i, x) (List.mem_cons_self ..)
      rw [List.getElem?_set_ne this]

private theorem place_has (ps : List (Nat × UInt8)) (hp : ∀ p ∈ ps, p.1 < 12) (hn : (ps.map Prod.fst).Nodup) :
    HasGains ps ⟨(place ps (0, List.replicate 12 0)).1, (place ps (0, List.replicate 12 0)).2⟩ := by
  obtain ⟨h1, h2, h3, h4⟩ := place_spec ps 0 (List.replicate 12 0) hp List.length_replicate hn
  refine ⟨h1, hp, fun k => ?_, h3, fun k hk h => ?_⟩
  · rw [h2 k]; simp
  · show (place ps _).2[k]? = _
    rw [h4 k h, List.getElem?_replicate, if_pos hk]

private theorem has_unique {ps : List (Nat × UInt8)} {a b : ReconGainElement} (ha : HasGains ps a) (hb : HasGains ps b) : a = b := by
  obtain ⟨fa, ga⟩ := a
  obtain ⟨fb, gb⟩ := b
  have hf : fa = fb := UInt32.toNat_inj.mp (Nat.eq_of_testBit_eq fun k => (ha.flag k).trans (hb.flag k).symm)
  have hg : ga = gb := by
    refine List.ext_getElem? fun k => ?_
    by_cases hk : k < 12
    · by_cases h : ∃ p ∈ ps, p.1 = k
      · obtain ⟨p, hp, rfl⟩ := h
        exact (ha.gain p hp).trans (hb.gain p hp).symm
      · have h' : ∀ p ∈ ps, p.1 ≠ k := fun p hp he => h ⟨p, hp, he⟩
        exact (ha.others k hk h').trans (hb.others k hk h').symm
    · have e1 := ha.length
      have e2 := hb.length
      simp only at e1 e2
      rw [List.getElem?_eq_none (by omega), List.getElem?_eq_none (by omega)]
  rw [hf, hg]

private theorem has_perm {ps qs : List (Nat × UInt8)} (h : ps.Perm qs) {a : ReconGainElement} (ha : HasGains ps a) : HasGains qs a where
  length := ha.length
  positions p hp := ha.positions p (h.mem_iff.mpr hp)
  flag k := by rw [ha.flag k, Bool.eq_iff_iff, List.any_eq_true, List.any_eq_true]; simp only [h.mem_iff]
  gain p hp := ha.gain p (h.mem_iff.mpr hp)
  others k hk h' := ha.others k hk fun p hp => h' p (h.mem_iff.mp hp)

private theorem user_place (given : List (UInt32 × UInt32)) : ∀ r : UInt32 × List UInt8, userReconGains given r =
    if (∀ p ∈ given, p.1.toNat < 12) then .ok (place (given.map fun p => (p.1.toNat, p.2.toUInt8)) r) else .error .ub := by
  induction given with
  | nil => intro r; rw [if_pos (fun p hp => by cases hp)]; rfl
  | cons p given ih =>
    intro r
    obtain ⟨k, x⟩ := p
    obtain ⟨f, g⟩ := r
    simp only [userReconGains, List.mem_cons, forall_eq_or_imp]
    by_cases hk : k.toNat < 12
    · rw [if_pos hk, ih]
      simp only [hk, true_and]
      split
      · simp only [List.map_cons, place, UInt32.ofNat_toNat]
      · rfl
    · rw [if_neg hk, if_neg fun h => hk h.1]

/-- The gains of the user. -/
theorem user_iff (given : List (UInt32 × UInt32)) (hn : (given.map Prod.fst).Nodup) (g : ReconGainElement) :
    userReconGains given (0, List.replicate 12 0) = .ok (g.flag, g.gains) ↔ HasGains (given.map fun p => (p.1.toNat, p.2.toUInt8)) g := by
  have hn' : ((given.map fun p => (p.1.toNat, p.2.toUInt8)).map Prod.fst).Nodup := by
    rw [List.map_map]
    have : (given.map (Prod.fst ∘ fun p => (p.1.toNat, p.2.toUInt8))) = (given.map Prod.fst).map UInt32.toNat := by rw [List.map_map]; rfl
    rw [this]
    exact List.Pairwise.map _ (fun a b h he => h (UInt32.toNat_inj.mp he)) hn
  have hpos : (∀ p ∈ given.map fun p => (p.1.toNat, p.2.toUInt8), p.1 < 12) ↔ ∀ p ∈ given, p.1.toNat < 12 := by
    simp only [List.forall_mem_map]
  rw [user_place]
  constructor
  · intro h
    split at h
    next hp =>
      rw [Except.ok.injEq] at h
      have := place_has _ (hpos.mpr hp) hn'
      rw [h] at this
      exact this
    next => simp at h
  · intro h
    have hp := h.positions
    rw [if_pos (hpos.mp hp)]
    have := has_unique (place_has _ hp hn') h
    rw [← this]

/-! ### Measured gains -/

theorem byte_iff (x : Rat) (b : UInt8) : reconGainByte x = .ok b ↔ GainByte x b := by
  unfold reconGainByte GainByte
  have hb := b.toNat_lt
  by_cases hx : 0 ≤ x
  · have h0 : 0 ≤ x * 255 := mul_nonneg hx (by norm_num)
    obtain ⟨h1, h2, h3⟩ := trunc_nonneg h0
    have hneg : ¬ x < 0 := not_lt.mpr hx
    simp only [hneg, false_and, or_false, hx, true_and]
    constructor
    · intro h
      split at h
      next hr =>
        rw [Except.ok.injEq] at h
        subst h
        have e : ((UInt8.ofNat (truncRat (x * 255)).toNat).toNat : Int) = truncRat (x * 255) := by
          rw [UInt8.toNat_ofNat']; omega
        have e' : ((UInt8.ofNat (truncRat (x * 255)).toNat).toNat : Rat) = (truncRat (x * 255) : Int) := by exact_mod_cast congrArg (Int.cast (R := Rat)) e
        rw [e']
        exact ⟨h1, h2⟩
      next => simp at h
    · rintro ⟨k1, k2⟩
      have e : truncRat (x * 255) = b.toNat := by
        have a1 : ((truncRat (x * 255) : Int) : Rat) < ((b.toNat + 1 : Int) : Rat) := by push_cast; exact lt_of_le_of_lt h1 k2
        have a2 : ((b.toNat : Int) : Rat) < ((truncRat (x * 255) + 1 : Int) : Rat) := by push_cast; exact lt_of_le_of_lt k1 h2
        have a1' := Int.cast_lt.mp a1
        have a2' := Int.cast_lt.mp a2
        omega
      rw [e, if_pos (by omega)]
      simp
  · have hneg : x < 0 := not_le.mp hx
    have h0 : x * 255 ≤ 0 := by linarith
    obtain ⟨h1, h2, h3⟩ := trunc_nonpos h0
    simp only [hx, false_and, false_or, hneg, true_and]
    constructor
    · intro h
      split at h
      next hr =>
        rw [Except.ok.injEq] at h
        have e : truncRat (x * 255) = 0 := by omega
        rw [e] at h2 h
        refine ⟨?_, h.symm⟩
        push_cast at h2
        linarith
      next => simp at h
    · rintro ⟨k1, rfl⟩
      have e : truncRat (x * 255) = 0 := by
        have a : ((-1 : Int) : Rat) < ((truncRat (x * 255) : Int) : Rat) := by push_cast; exact lt_of_lt_of_le k1 h1
        have := Int.cast_lt.mp a
        omega
      rw [e]
      rfl

private theorem convert_place (gs : List (Label × Rat)) : ∀ r r', convertReconGains gs r = .ok r' ↔
    (∀ g ∈ gs, ∃ b, reconGainByte g.2 = .ok b) ∧ r' = place (gs.map fun g => (reconPosition g.1, (reconGainByte g.2).toOption.getD 0)) r := by
  induction gs with
  | nil => intro r r'; simp only [convertReconGains, Except.ok.injEq, List.map_nil, place]; constructor
           · intro h; exact ⟨fun g hg => (by cases hg), h.symm⟩
           · intro h; exact h.2.symm
  | cons g gs ih =>
    intro r r'
    obtain ⟨l, x⟩ := g
    obtain ⟨f, gains⟩ := r
    simp only [convertReconGains, bind, Except.bind, List.mem_cons, forall_eq_or_imp, List.map_cons]
    cases hx : reconGainByte x with
    | error e => simp
    | ok b =>
      simp only [ih, place, Except.toOption, Option.getD_some]
      simp

private theorem gains_of_labels (gain : Label → Except Err Rat) (ls : List Label) (gs : List (Label × Rat)) :
    gainsOfLabels gain ls = .ok gs ↔ List.Forall₂ (fun l g => g.1 = l ∧ gain l = .ok g.2) ls gs := by
  induction ls generalizing gs with
  | nil => simp only [gainsOfLabels, Except.ok.injEq, List.forall₂_nil_left_iff]; exact eq_comm
  | cons l ls ih =>
    simp only [gainsOfLabels, bind, Except.bind]
    cases hg : gain l with
    | error e =>
      simp only [List.forall₂_cons_left_iff]
      constructor
      · intro h; simp at h
      · rintro ⟨b, u, ⟨-, h⟩, -⟩; rw [hg] at h; simp at h
    | ok x =>
      simp only [List.forall₂_cons_left_iff]
      cases hr : gainsOfLabels gain ls with
      | error e =>
        constructor
        · intro h; simp at h
        · rintro ⟨b, u, -, h, -⟩; rw [← ih, hr] at h; simp at h
      | ok rest =>
        simp only [Except.ok.injEq]
        constructor
        · intro h; exact ⟨(l, x), rest, ⟨rfl, hg⟩, (ih rest).mp hr, h.symm⟩
        · rintro ⟨⟨l', x'⟩, u, ⟨h1, h2⟩, h3, rfl⟩
          rw [← ih, hr, Except.ok.injEq] at h3
          rw [hg, Except.ok.injEq] at h2
          simp only at h1 h2
          rw [h1, h2, h3]

private theorem demixed_ok (below layer : ChannelNumbers) (h : layer.surround ≤ 7) : findDemixedChannels below layer = .ok (demixedIn below layer) := by
  have key : ∀ b < 8, ∀ s < 8, reconSurround b (List.range' (b + 1) (s - b)) = .ok (
      (if b = 1 ∧ 2 ≤ s then [.demixedR2] else []) ++ (if b < 3 ∧ 3 ≤ s then [.demixedL3, .demixedR3] else []) ++
      (if b < 5 ∧ 5 ≤ s then [.demixedLs5, .demixedRs5] else []) ++
      (if b < 7 ∧ 7 ≤ s then [.demixedL7, .demixedR7, .demixedLrs7, .demixedRrs7] else [])) := by decide
  have hs : reconSurround below.surround (List.range' (below.surround + 1) (layer.surround - below.surround)) = .ok (
      (if below.surround = 1 ∧ 2 ≤ layer.surround then [.demixedR2] else []) ++
      (if below.surround < 3 ∧ 3 ≤ layer.surround then [.demixedL3, .demixedR3] else []) ++
      (if below.surround < 5 ∧ 5 ≤ layer.surround then [.demixedLs5, .demixedRs5] else []) ++
      (if below.surround < 7 ∧ 7 ≤ layer.surround then [.demixedL7, .demixedR7, .demixedLrs7, .demixedRrs7] else [])) := by
    by_cases hb : below.surround < 8
    · exact key _ hb _ (by omega)
    · rw [show layer.surround - below.surround = 0 by omega, if_neg (by omega), if_neg (by omega), if_neg (by omega), if_neg (by omega)]
      rfl
  have hh : reconHeight below layer =
      (if below.height = 2 ∧ layer.height = 2 ∧ below.surround = 3 ∧ 3 < layer.surround then [.demixedLtf2, .demixedRtf2] else []) ++
      (if below.height = 2 ∧ layer.height = 4 then [.demixedLtb4, .demixedRtb4] else []) := by
    unfold reconHeight
    by_cases h1 : below.height = 2 <;> by_cases h2 : layer.height = 4 <;> simp [h1, h2]
  unfold findDemixedChannels demixedIn
  rw [hs]
  simp only [bind, Except.bind]
  rw [hh, List.append_assoc _ (if below.height = 2 ∧ layer.height = 2 ∧ below.surround = 3 ∧ 3 < layer.surround then _ else _)]

private theorem place_of (below layer : ChannelNumbers) : ∀ l ∈ demixedIn below layer, ∀ k, (k = reconPosition l ↔ ∃ ls, reconOrder[k]? = some ls ∧ l ∈ ls) := by
  have key : ∀ l ∈ ([.demixedR2, .demixedL3, .demixedR3, .demixedLs5, .demixedRs5, .demixedL7, .demixedR7, .demixedLrs7, .demixedRrs7, .demixedLtf2,
      .demixedRtf2, .demixedLtb4, .demixedRtb4] : List Label), ∀ k < 12, (k = reconPosition l ↔ (reconOrder[k]?.getD []).contains l = true) := by decide
  have hsub : ∀ l ∈ demixedIn below layer, l ∈ ([.demixedR2, .demixedL3, .demixedR3, .demixedLs5, .demixedRs5, .demixedL7, .demixedR7, .demixedLrs7,
      .demixedRrs7, .demixedLtf2, .demixedRtf2, .demixedLtb4, .demixedRtb4] : List Label) := by
    intro l hl
    unfold demixedIn at hl
    simp only [List.mem_append, List.mem_ite_nil_right, List.mem_cons, List.not_mem_nil, or_false] at hl ⊢
    tauto
  have hle : ∀ l, reconPosition l < 12 := by intro l; cases l <;> first | decide | (simp [reconPosition])
  intro l hl k
  by_cases hk : k < 12
  · rw [key l (hsub l hl) k hk, List.contains_iff_mem]
    have hlen : k < reconOrder.length := hk
    rw [List.getElem?_eq_getElem hlen]
    simp
  · constructor
    · intro h; exact absurd (h ▸ hle l) hk
    · rintro ⟨ls, h, -⟩
      rw [List.getElem?_eq_none (by show 12 ≤ k; omega)] at h
      simp at h

private theorem places_distinct (below layer : ChannelNumbers) (h1 : below.surround ≤ 1 → layer.surround < 3) (h2 : below.surround ≤ 2 → layer.surround < 7) :
    ((demixedIn below layer).map reconPosition).Nodup := by
  unfold demixedIn
  by_cases a1 : below.surround = 1 ∧ 2 ≤ layer.surround
  · rw [if_pos a1, if_neg (by omega), if_neg (by omega), if_neg (by omega), if_neg (by omega)]
    split <;> decide
  · rw [if_neg a1]
    by_cases a2 : below.surround < 3 ∧ 3 ≤ layer.surround
    · rw [if_pos a2, if_neg (c := below.surround < 7 ∧ 7 ≤ layer.surround) (by omega),
        if_neg (c := below.height = 2 ∧ layer.height = 2 ∧ below.surround = 3 ∧ 3 < layer.surround) (by omega)]
      split <;> split <;> decide
    · rw [if_neg a2]
      split <;> split <;> split <;> split <;> first | decide | omega

/-- The gains that were measured. -/
theorem computed_iff (gain : Label → Except Err Rat) (rank : Label → Nat) (index : Nat) (hi : 0 < index) (layer below : ChannelNumbers)
    (h : layer.surround ≤ 7) (h1 : below.surround ≤ 1 → layer.surround < 3) (h2 : below.surround ≤ 2 → layer.surround < 7) (g : ReconGainElement) :
    computeReconGains gain rank index layer below true = .ok (g.flag, g.gains) ↔ IsMeasured gain below layer g := by
  unfold computeReconGains
  rw [if_pos hi, demixed_ok below layer h]
  simp only [bind, Except.bind]
  have hlen : ∀ l, reconPosition l < 12 := by intro l; cases l <;> first | decide | (simp [reconPosition])
  constructor
  · intro hc
    cases hg : gainsOfLabels gain (demixedIn below layer) with
    | error e => rw [hg] at hc; simp at hc
    | ok gs =>
      rw [hg] at hc
      simp only at hc
      split at hc
      · simp at hc
      next hf =>
        rw [gains_of_labels] at hg
        rw [convert_place] at hc
        obtain ⟨hb, he⟩ := hc
        have hperm := sortBy_perm (fun a b : Label × Rat => decide (rank a.1 ≤ rank b.1)) gs
        obtain ⟨ps, hps⟩ : ∃ ps : List (Nat × UInt8), ps = gs.map fun g => (reconPosition g.1, (reconGainByte g.2).toOption.getD 0) := ⟨_, rfl⟩
        have hfst : ps.map Prod.fst = (demixedIn below layer).map reconPosition := by
          rw [hps, List.map_map]
          clear * - hg
          generalize demixedIn below layer = D at hg ⊢
          induction hg with
          | nil => rfl
          | cons a _ ih => rw [List.map_cons, List.map_cons, ih, ← a.1]; rfl
        have hperm' : (List.map (fun g : Label × Rat => (reconPosition g.1, (reconGainByte g.2).toOption.getD 0)) (sortBy (fun a b => decide (rank a.1 ≤ rank b.1)) gs)).Perm ps := by
          rw [hps]; exact hperm.map _
        have hn : (ps.map Prod.fst).Nodup := by rw [hfst]; exact places_distinct below layer h1 h2
        refine ⟨fun hd => ?_, ps, ?_, ?_⟩
        · rw [hd, List.forall₂_nil_left_iff] at hg
          subst hg
          simp at hf
        · have hgs := hg
          rw [hps, List.forall₂_map_right_iff]
          have hb' : ∀ g ∈ gs, ∃ b, reconGainByte g.2 = .ok b := fun g hg => hb g (hperm.mem_iff.mpr hg)
          have hin : ∀ l ∈ demixedIn below layer, l ∈ demixedIn below layer := fun _ h => h
          revert hin
          generalize hD : demixedIn below layer = D at hg ⊢
          have hD' : ∀ l ∈ D, l ∈ demixedIn below layer := by rw [hD]; exact fun _ h => h
          intro _
          clear * - hg hb' hD'
          induction hg with
          | nil => exact .nil
          | @cons l g D gs a _ ih =>
            refine .cons ?_ (ih (fun g hg => hb' g (List.mem_cons_of_mem _ hg)) fun l hl => hD' l (List.mem_cons_of_mem _ hl))
            obtain ⟨b, hb⟩ := hb' g (List.mem_cons_self ..)
            refine ⟨(place_of below layer l (hD' l (List.mem_cons_self ..)) _).mp (by rw [a.1]), g.2, a.2, ?_⟩
            rw [hb]
            exact (byte_iff _ _).mp hb
        · have := place_has _ (fun p hp => by
            obtain ⟨g, -, rfl⟩ := List.mem_map.mp hp
            exact hlen _) ((hperm'.map Prod.fst).nodup_iff.mpr hn)
          rw [← he] at this
          exact has_perm hperm' this
  · rintro ⟨hne, ps, hps, hg⟩
    obtain ⟨gs, hgs1, hgs2⟩ : ∃ gs : List (Label × Rat), List.Forall₂ (fun l g => g.1 = l ∧ gain l = .ok g.2) (demixedIn below layer) gs ∧
        (∀ g ∈ gs, ∃ b, reconGainByte g.2 = .ok b) ∧ gs.map (fun g => (reconPosition g.1, (reconGainByte g.2).toOption.getD 0)) = ps := by
      have hD' : ∀ l ∈ demixedIn below layer, l ∈ demixedIn below layer := fun _ h => h
      generalize hD : demixedIn below layer = D at hps ⊢
      have hD' : ∀ l ∈ D, l ∈ demixedIn below layer := by rw [hD]; exact fun _ h => h
      clear * - hps hD'
      induction hps with
      | nil => exact ⟨[], .nil, fun g hg => (by cases hg), rfl⟩
      | @cons l p D ps a _ ih =>
        obtain ⟨gs, k1, k2, k3⟩ := ih fun l hl => hD' l (List.mem_cons_of_mem _ hl)
        obtain ⟨a1, x, a2, a3⟩ := a
        have hb := (byte_iff _ _).mpr a3
        refine ⟨(l, x) :: gs, .cons ⟨rfl, a2⟩ k1, fun g hg => ?_, ?_⟩
        · rcases List.mem_cons.mp hg with e | hg'
          · subst e; exact ⟨_, hb⟩
          · exact k2 g hg'
        · rw [List.map_cons, k3, hb, ← (place_of below layer l (hD' l (List.mem_cons_self ..)) p.1).mpr a1]
          rfl
    rw [(gains_of_labels gain _ gs).mpr hgs1]
    simp only
    have hgne : gs ≠ [] := by
      rintro rfl
      rw [List.forall₂_nil_right_iff] at hgs1
      exact hne hgs1
    rw [if_neg (by cases gs with
      | nil => exact absurd rfl hgne
      | cons _ _ => simp), convert_place]
    have hperm := sortBy_perm (fun a b : Label × Rat => decide (rank a.1 ≤ rank b.1)) gs
    refine ⟨fun g hg => hgs2.1 g (hperm.mem_iff.mp hg), ?_⟩
    have hperm' := hperm.map (fun g : Label × Rat => (reconPosition g.1, (reconGainByte g.2).toOption.getD 0))
    rw [hgs2.2] at hperm'
    have hfst : ps.map Prod.fst = (demixedIn below layer).map reconPosition := by
      rw [← hgs2.2, List.map_map]
      clear * - hgs1
      generalize demixedIn below layer = D at hgs1 ⊢
      induction hgs1 with
      | nil => rfl
      | cons a _ ih => rw [List.map_cons, List.map_cons, ih, ← a.1]; rfl
    have := place_has _ (fun p hp => by
      obtain ⟨g, -, rfl⟩ := List.mem_map.mp hp
      exact hlen _) ((hperm'.map Prod.fst).nodup_iff.mpr (by rw [hfst]; exact places_distinct below layer h1 h2))
    rw [has_unique hg (has_perm hperm' this)]

/-! ### Subblocks -/

private theorem cast_iff (x : Int32) (y : Int16) : castInt16 x = .ok y ↔ y.toInt = x.toInt := by
  unfold castInt16
  have h1 := y.le_toInt
  have h2 := y.toInt_lt
  constructor
  · intro h
    split at h
    next hr =>
      rw [Except.ok.injEq] at h
      subst h
      have e : x.toInt16.toInt = x.toInt.bmod 65536 := Int32.toInt_toInt16 x
      rw [e]
      exact Int.bmod_eq_of_le (by omega) (by omega)
    next => simp at h
  · intro h
    rw [if_pos (by omega), Except.ok.injEq]
    refine Int16.toInt_inj.mp ?_
    have e : x.toInt16.toInt = x.toInt.bmod 65536 := Int32.toInt_toInt16 x
    rw [e, h]
    exact Int.bmod_eq_of_le (by omega) (by omega)

private theorem byte_cast (x : UInt32) (y : UInt8) : castUInt8 x = .ok y ↔ y.toNat = x.toNat := by
  unfold castUInt8
  have h1 := y.toNat_lt
  constructor
  · intro h
    split at h
    next hr =>
      rw [Except.ok.injEq] at h
      subst h
      rw [UInt32.toNat_toUInt8]
      omega
    next => simp at h
  · intro h
    rw [if_pos (by omega), Except.ok.injEq]
    refine UInt8.toNat_inj.mp ?_
    rw [UInt32.toNat_toUInt8]
    omega

private theorem bind_ok {α β : Type} {x : Except Err α} {f : α → Except Err β} {b : β} : x.bind f = .ok b ↔ ∃ a, x = .ok a ∧ f a = .ok b := by
  cases x with
  | error e => simp [Except.bind]
  | ok a => simp [Except.bind]

theorem mixGain_iff (g : GainMetadata) (y : MixGainData) : generateMixGain g = .ok y ↔ SameGain g y := by
  cases g with
  | unset => simp [generateMixGain, SameGain]
  | step s =>
    simp only [generateMixGain, bind, bind_ok, cast_iff, Except.ok.injEq]
    cases y with
    | step a => simp [SameGain]
    | linear a b => simp [SameGain]
    | bezier a b c d => simp [SameGain]
  | linear s e =>
    simp only [generateMixGain, bind, bind_ok, cast_iff, Except.ok.injEq]
    cases y with
    | step a => simp [SameGain]
    | linear a b => simp [SameGain, and_assoc]
    | bezier a b c d => simp [SameGain]
  | bezier s e c t =>
    simp only [generateMixGain, bind, bind_ok, cast_iff, byte_cast, Except.ok.injEq]
    cases y with
    | step a => simp [SameGain]
    | linear a b => simp [SameGain]
    | bezier a b c d => simp [SameGain, and_assoc]

theorem demixing_iff (mode reserved : UInt32) (y : DemixingInfo) : generateDemixing mode reserved = .ok y ↔ SameMode mode reserved y := by
  obtain ⟨m, r⟩ := y
  have hm : ∀ a : UInt8, dmixpModeFromProto mode = .ok a ↔ a.toNat + 1 = mode.toNat ∧ a.toNat < 8 := by
    intro a
    unfold dmixpModeFromProto
    have k1 : (1 : UInt32).toNat = 1 := rfl
    have k8 : (8 : UInt32).toNat = 8 := rfl
    have hsub : 1 ≤ mode → (mode - 1).toNat = mode.toNat - 1 := fun h => by rw [UInt32.toNat_sub_of_le _ _ h, k1]
    simp only [UInt32.le_iff_toNat_le, k1, k8] at hsub ⊢
    constructor
    · intro h
      split at h
      next hr =>
        rw [Except.ok.injEq] at h
        subst h
        rw [UInt32.toNat_toUInt8, hsub hr.1]
        omega
      next => simp at h
    · intro h
      rw [if_pos (by omega), Except.ok.injEq]
      refine UInt8.toNat_inj.mp ?_
      rw [UInt32.toNat_toUInt8, hsub (by omega)]
      omega
  simp only [generateDemixing, bind, bind_ok, byte_cast, Except.ok.injEq, hm, SameMode, DemixingInfo.mk.injEq]
  constructor
  · rintro ⟨a, ⟨h1, h2⟩, b, h3, rfl, rfl⟩; exact ⟨h1, h2, h3⟩
  · rintro ⟨h1, h2, h3⟩; exact ⟨m, ⟨h1, h2⟩, r, h3, rfl, rfl⟩

private theorem layer_iff (override : Bool) (source : UInt32 → ReconSource) (r : UInt32 × List ChannelNumbers) (user : List (List (UInt32 × UInt32)))
    (hk : ∀ l ∈ user, (l.map Prod.fst).Nodup)
    (hp : override = false → ∀ i below layer, r.2[i]? = some below → r.2[i + 1]? = some layer →
      layer.surround ≤ 7 ∧ (below.surround ≤ 1 → layer.surround < 3) ∧ (below.surround ≤ 2 → layer.surround < 7))
    (i : Nat) (flag : Bool) (e : Option ReconGainElement) :
    generateReconLayer override source r user i flag = .ok e ↔ SameLayer override source r.1 r.2 user i flag e := by
  unfold generateReconLayer SameLayer
  cases flag with
  | false => simp only [Bool.not_false, if_true, Except.ok.injEq, Bool.false_eq_true, if_false]; exact eq_comm
  | true =>
    simp only [Bool.not_true, Bool.false_eq_true, if_false, if_true]
    cases hu : user[i]? with
    | none => simp
    | some given =>
      have hn := hk given (List.mem_of_getElem? hu)
      simp only [bind, bind_ok]
      constructor
      · rintro ⟨⟨f, gs⟩, h1, h2⟩
        rw [show ((f, gs) : UInt32 × List UInt8) = ((⟨f, gs⟩ : ReconGainElement).flag, (⟨f, gs⟩ : ReconGainElement).gains) from rfl, user_iff given hn] at h1
        cases override with
        | true =>
          simp only [if_true, Except.ok.injEq] at h2
          exact ⟨given, ⟨f, gs⟩, rfl, h2.symm, h1, fun h => by cases h⟩
        | false =>
          simp only [Bool.false_eq_true, if_false] at h2
          cases hs : (source r.1).gain with
          | none => rw [hs] at h2; simp at h2
          | some gain =>
            rw [hs] at h2
            simp only at h2
            by_cases hi : 0 < i
            · rw [if_pos hi] at h2
              cases hl : r.2[i]? with
              | none => rw [hl] at h2; simp at h2
              | some layer =>
                rw [hl] at h2
                cases hb : r.2[i - 1]? with
                | none => rw [hb] at h2; simp at h2
                | some below =>
                  rw [hb] at h2
                  simp only [bind_ok] at h2
                  obtain ⟨⟨f', gs'⟩, h3, h4⟩ := h2
                  split at h4
                  · simp at h4
                  next hf =>
                    split at h4
                    · simp at h4
                    next hg =>
                      simp only [Decidable.not_not] at hf hg
                      subst hf; subst hg
                      rw [Except.ok.injEq] at h4
                      obtain ⟨k1, k2, k3⟩ := hp rfl (i - 1) below layer hb (by rw [show i - 1 + 1 = i by omega]; exact hl)
                      rw [show ((f', gs') : UInt32 × List UInt8) = ((⟨f', gs'⟩ : ReconGainElement).flag, (⟨f', gs'⟩ : ReconGainElement).gains) from rfl,
                        computed_iff gain _ i hi layer below k1 k2 k3] at h3
                      exact ⟨given, ⟨f', gs'⟩, rfl, h4.symm, h1, fun _ => ⟨gain, below, layer, rfl, hi, rfl, rfl, h3⟩⟩
            · have hi0 : i = 0 := by omega
              subst hi0
              rw [if_neg hi] at h2
              cases hl : r.2[0]? with
              | none => rw [hl] at h2; simp at h2
              | some layer =>
                rw [hl] at h2
                simp only [bind_ok] at h2
                obtain ⟨c, h3, -⟩ := h2
                simp [computeReconGains, bind, Except.bind] at h3
      · rintro ⟨given', g, h1, rfl, h3, h4⟩
        rw [Option.some.injEq] at h1
        subst h1
        refine ⟨(g.flag, g.gains), (user_iff _ hn g).mpr h3, ?_⟩
        cases override with
        | true => rfl
        | false =>
          obtain ⟨gain, below, layer, h5, hi, h6, h7, h8⟩ := h4 rfl
          simp only [Bool.false_eq_true, if_false, h5, if_pos hi, h6, h7, bind_ok]
          obtain ⟨k1, k2, k3⟩ := hp rfl (i - 1) below layer h6 (by rw [show i - 1 + 1 = i by omega]; exact h7)
          refine ⟨(g.flag, g.gains), (computed_iff gain _ i hi layer below k1 k2 k3 g).mpr h8, ?_⟩
          simp

private theorem layers_iff (override : Bool) (source : UInt32 → ReconSource) (r : UInt32 × List ChannelNumbers) (user : List (List (UInt32 × UInt32)))
    (hk : ∀ l ∈ user, (l.map Prod.fst).Nodup)
    (hp : override = false → ∀ i below layer, r.2[i]? = some below → r.2[i + 1]? = some layer →
      layer.surround ≤ 7 ∧ (below.surround ≤ 1 → layer.surround < 3) ∧ (below.surround ≤ 2 → layer.surround < 7))
    (flags : List Bool) : ∀ (k : Nat) (es : List (Option ReconGainElement)), generateReconLayers override source r user k flags = .ok es ↔
      es.length = flags.length ∧ ∀ i flag e, flags[i]? = some flag → es[i]? = some e → SameLayer override source r.1 r.2 user (k + i) flag e := by
  induction flags with
  | nil =>
    intro k es
    simp only [generateReconLayers, Except.ok.injEq, List.length_nil, List.length_eq_zero_iff]
    constructor
    · rintro rfl; exact ⟨rfl, fun i flag e h => by simp at h⟩
    · intro h; exact h.1.symm
  | cons flag flags ih =>
    intro k es
    simp only [generateReconLayers, bind, bind_ok, Except.ok.injEq, layer_iff override source r user hk hp, ih]
    constructor
    · rintro ⟨e, h1, es', ⟨h2, h3⟩, rfl⟩
      refine ⟨by simp [h2], fun i fl e' hf he => ?_⟩
      cases i with
      | zero =>
        simp only [List.getElem?_cons_zero, Option.some.injEq] at hf he
        subst hf; subst he
        exact h1
      | succ i =>
        simp only [List.getElem?_cons_succ] at hf he
        rw [show k + (i + 1) = k + 1 + i by omega]
        exact h3 i fl e' hf he
    · rintro ⟨hl, h⟩
      cases es with
      | nil => simp at hl
      | cons e es =>
        refine ⟨e, h 0 flag e rfl rfl, es, ⟨by simpa using hl, fun i fl e' hf he => ?_⟩, rfl⟩
        rw [show k + 1 + i = k + (i + 1) by omega]
        exact h (i + 1) fl e' hf he

/-- Whether more than two subblocks are allowed. -/
def ManySubblocks (p : ParamDef) : Prop := ∃ d, p.spec = .mixGain d

private theorem content_layers (c : SubblockContent) : c.asReconGain = layersIn c := by cases c <;> rfl

/-- The data of a subblock are accepted if they can be what the metadata say, and are that. -/
theorem subblock_iff (override : Bool) (source : UInt32 → ReconSource) (d : ParamEntry) (index : Nat) (m : SubblockMetadata) (hk : DistinctKeys m)
    (hp : override = false → OnePerPlace d) (x : ParamData) :
    generateSubblock override source d index m = .ok x ↔ (ManySubblocks d.1 ∨ index ≤ 1) ∧ Says override source d m x := by
  unfold generateSubblock Says ManySubblocks
  cases hs : d.1.spec with
  | mixGain g =>
    simp only [bind, bind_ok, mixGain_iff, Except.ok.injEq, ParamSpecific.mixGain.injEq, exists_eq', true_or, true_and]
    constructor
    · rintro ⟨y, h, rfl⟩
      cases hc : m.content with
      | mixGain g => rw [hc] at h; exact ⟨g, y, rfl, rfl, h⟩
      | unset => rw [hc] at h; exact absurd h (by simp [SubblockContent.asMixGain, SameGain])
      | demixing a b => rw [hc] at h; exact absurd h (by simp [SubblockContent.asMixGain, SameGain])
      | reconGain a => rw [hc] at h; exact absurd h (by simp [SubblockContent.asMixGain, SameGain])
    · rintro ⟨g, y, h1, rfl, h3⟩
      rw [h1]
      exact ⟨y, h3, rfl⟩
  | demixing g =>
    simp only [reduceCtorEq, exists_false, false_or]
    by_cases hi : index ≤ 1
    · rw [if_neg (by omega)]
      simp only [bind, bind_ok, demixing_iff, Except.ok.injEq, hi, true_and]
      constructor
      · rintro ⟨y, h, rfl⟩
        cases hc : m.content with
        | demixing a b => rw [hc] at h; exact ⟨a, b, y, rfl, rfl, h⟩
        | unset => rw [hc] at h; exact absurd h.1 (by simp [SubblockContent.asDemixing])
        | mixGain a => rw [hc] at h; exact absurd h.1 (by simp [SubblockContent.asDemixing])
        | reconGain a => rw [hc] at h; exact absurd h.1 (by simp [SubblockContent.asDemixing])
      · rintro ⟨a, b, y, h1, rfl, h3⟩
        rw [h1]
        exact ⟨y, h3, rfl⟩
    · rw [if_pos (by omega)]
      simp [hi]
  | reconGain flags =>
    simp only [reduceCtorEq, exists_false, false_or]
    by_cases hi : index ≤ 1
    · rw [if_neg (by omega), content_layers]
      simp only [bind, bind_ok, Except.ok.injEq, hi, true_and]
      unfold generateReconGain
      have hl := layers_iff override source (d.2.getD (0, [])) (layersIn m.content) hk hp flags 0
      simp only [Nat.zero_add] at hl
      constructor
      · rintro ⟨es, h, rfl⟩
        split at h
        · simp at h
        next hc =>
          obtain ⟨h1, h2⟩ := (hl es).mp h
          refine ⟨es, rfl, h1, fun hlt => ?_, h2⟩
          exact Decidable.byContradiction fun hne => hc ⟨hlt, fun he => hne he.symm⟩
      · rintro ⟨es, rfl, h1, h2, h3⟩
        refine ⟨es, ?_, rfl⟩
        rw [if_neg fun hc => hc.2 (h2 hc.1).symm]
        exact (hl es).mpr ⟨h1, h3⟩
    · rw [if_pos (by omega)]
      simp [hi]
  | polar _ _ _ => simp
  | cart8 _ _ _ => simp
  | cart16 _ _ _ => simp
  | dualPolar _ _ _ _ _ _ => simp
  | dualCart8 _ _ _ _ _ _ => simp
  | dualCart16 _ _ _ _ _ _ => simp
  | extended _ _ => simp

private theorem subblocks_iff (override : Bool) (source : UInt32 → ReconSource) (d : ParamEntry) (hp : override = false → OnePerPlace d)
    (ms : List SubblockMetadata) (hk : ∀ m ∈ ms, DistinctKeys m) : ∀ (k : Nat) (xs : List (Option ParamData)),
    generateSubblocks override source d k ms = .ok xs ↔
      (ManySubblocks d.1 ∨ ms = [] ∨ k + ms.length ≤ 2) ∧ List.Forall₂ (fun m x => ∃ y, x = some y ∧ Says override source d m y) ms xs := by
  induction ms with
  | nil =>
    intro k xs
    simp only [generateSubblocks, Except.ok.injEq, List.forall₂_nil_left_iff, true_or, or_true, true_and]
    exact eq_comm
  | cons m ms ih =>
    intro k xs
    simp only [generateSubblocks, bind, bind_ok, Except.ok.injEq, ih (fun m hm => hk m (List.mem_cons_of_mem _ hm)),
      subblock_iff override source d k m (hk m (List.mem_cons_self ..)) hp, List.forall₂_cons_left_iff]
    have hc : (ManySubblocks d.1 ∨ k ≤ 1) ∧ (ManySubblocks d.1 ∨ ms = [] ∨ k + 1 + ms.length ≤ 2) ↔
        ManySubblocks d.1 ∨ m :: ms = [] ∨ k + (m :: ms).length ≤ 2 := by
      simp only [List.length_cons, reduceCtorEq, false_or]
      by_cases hm : ManySubblocks d.1
      · simp [hm]
      · simp only [hm, false_or]
        cases ms with
        | nil => simp <;> omega
        | cons _ _ => simp; omega
    constructor
    · rintro ⟨y, ⟨a1, a2⟩, xs', ⟨b1, b2⟩, rfl⟩
      exact ⟨hc.mp ⟨a1, b1⟩, some y, xs', ⟨y, rfl, a2⟩, b2, rfl⟩
    · rintro ⟨h1, x, xs', ⟨y, rfl, h2⟩, h3, rfl⟩
      have := hc.mpr h1
      exact ⟨y, ⟨this.1, h2⟩, xs', ⟨this.2, h3⟩, rfl⟩

/-! ### Blocks -/

private theorem durations_accepted (l : List UInt32) : ∀ (acc t : UInt32), (∀ d ∈ l, d ≠ 0) → acc.toNat + (l.map UInt32.toNat).sum = t.toNat →
    SubblockSchedule.sumDurations l acc = .ok t := by
  induction l with
  | nil =>
    intro acc t _ h
    have : acc = t := UInt32.toNat_inj.mp (by simpa using h)
    rw [this]
    rfl
  | cons d l ih =>
    intro acc t hne h
    rw [List.map_cons, List.sum_cons] at h
    have ht := t.toNat_lt
    have hs : (acc + d).toNat = acc.toNat + d.toNat := by rw [UInt32.toNat_add]; omega
    have hadd : addUint32CheckOverflow acc d = .ok (acc + d) := by
      unfold addUint32CheckOverflow
      rw [if_neg (by omega), Except.ok.injEq]
      refine UInt32.toNat_inj.mp ?_
      rw [hs, UInt32.toNat_ofNat']
      omega
    simp only [SubblockSchedule.sumDurations]
    rw [if_neg (hne d (List.mem_cons_self ..)), hadd]
    exact ih _ _ (fun x hx => hne x (List.mem_cons_of_mem _ hx)) (by omega)

/-- A schedule is made from the metadata if it can be what they ask for, and is that. -/
theorem schedule_iff (b : BlockMetadata ObuHeader) (hl : b.subblocks.length < 4294967296) (s : SubblockSchedule) :
    b.schedule = .ok s ↔ MetadataSchedule b s := by
  unfold BlockMetadata.schedule MetadataSchedule
  by_cases hc : b.constantSubblockDuration ≠ 0
  · simp only [hc, if_true, bind, bind_ok, ne_eq, not_false_eq_true]
    constructor
    · rintro ⟨s', h1, h2⟩
      split at h2
      · simp at h2
      next hn =>
        rw [Except.ok.injEq] at h2
        subst h2
        simp only [Decidable.not_not] at hn
        obtain ⟨e1, e2, e3, -, -, ec, e4, e5, e6, e7⟩ := SubblockSchedule.createConstant_ok h1
        rw [hn] at e4 e5 e6 e7
        exact ⟨e1, e2, hn, e4, e5, e3, UInt32.le_iff_toNat_le.mpr ec, e6, e7⟩
    · rintro ⟨h1, h2, h3, h4, h5, h6, hle, h7, h8⟩
      rw [UInt32.le_iff_toNat_le] at hle
      have hpos : 0 < b.constantSubblockDuration.toNat := by
        rcases Nat.eq_zero_or_pos b.constantSubblockDuration.toNat with h | h
        · exact absurd (UInt32.toNat_inj.mp h) hc
        · exact h
      obtain ⟨s', hs'⟩ := (C18_constant_accepts_iff b.duration b.constantSubblockDuration).1.mpr ⟨hpos, hle, Nat.le_trans h8 (Nat.mul_le_mul_right _ h5)⟩
      obtain ⟨e1, e2, e3, -, -, -, e4, e5, e6, e7⟩ := SubblockSchedule.createConstant_ok hs'
      have hn : s'.numSubblocks.toNat = b.subblocks.length := by
        have a1 : ¬ s'.numSubblocks.toNat < b.subblocks.length := fun h => by
          have : s'.numSubblocks.toNat * b.constantSubblockDuration.toNat ≤ (b.subblocks.length - 1) * b.constantSubblockDuration.toNat :=
            Nat.mul_le_mul_right _ (by omega)
          omega
        have a2 : ¬ b.subblocks.length < s'.numSubblocks.toNat := fun h => by
          have : b.subblocks.length * b.constantSubblockDuration.toNat ≤ (s'.numSubblocks.toNat - 1) * b.constantSubblockDuration.toNat :=
            Nat.mul_le_mul_right _ (by omega)
          omega
        omega
      refine ⟨s', hs', ?_⟩
      rw [if_neg (by rw [hn]; simp), Except.ok.injEq]
      obtain ⟨a, b', c, d⟩ := s
      obtain ⟨a', b'', c', d'⟩ := s'
      simp only at *
      have : c' = c := UInt32.toNat_inj.mp (by rw [hn, h3])
      rw [e1, e2, e3, h1, h2, h6, this]
  · simp only [hc, if_false, bind, bind_ok]
    simp only [ne_eq, Decidable.not_not] at hc
    constructor
    · rintro ⟨s', h1, h2⟩
      split at h2
      · simp at h2
      next hn =>
        rw [Except.ok.injEq] at h2
        subst h2
        simp only [Decidable.not_not] at hn
        obtain ⟨e1, e2, e3, e4, e5, e6, e7⟩ := SubblockSchedule.createVariable_ok (by rw [List.length_map]; exact hl) h1
        rw [List.length_map] at e3 e4 e5
        refine ⟨hn, by rw [e1, hc], e3, e4, e5, e2, fun m hm => e6 _ (List.mem_map_of_mem hm), ?_⟩
        rw [← hn, e7]
    · rintro ⟨h1, h2, h3, h4, h5, h6, h7, h8⟩
      have hs := durations_accepted (b.subblocks.map SubblockMetadata.duration) 0 b.duration (by
        intro d hd
        obtain ⟨m, hm, rfl⟩ := List.mem_map.mp hd
        exact h7 m hm) (by rw [h8]; simp)
      have hnum : (UInt32.ofNat (b.subblocks.map SubblockMetadata.duration).length).toNat = b.subblocks.length := by
        rw [List.length_map, UInt32.toNat_ofNat']; omega
      refine ⟨⟨b.duration, 0, UInt32.ofNat (b.subblocks.map SubblockMetadata.duration).length, b.subblocks.map SubblockMetadata.duration⟩, ?_, ?_⟩
      · unfold SubblockSchedule.createVariable
        simp only
        rw [if_pos, hnum, List.take_of_length_le (by rw [List.length_map]), hs]
        simp only [inRange32, Bool.and_eq_true, decide_eq_true_eq, UInt32.le_iff_toNat_le, hnum]
        exact ⟨h4, h5⟩
      · rw [if_neg (by simp), Except.ok.injEq]
        obtain ⟨a, b', c, d⟩ := s
        simp only at *
        have : UInt32.ofNat (b.subblocks.map SubblockMetadata.duration).length = c := UInt32.toNat_inj.mp (by rw [hnum, h3])
        rw [h1, h2, h6, hc, this]

private theorem next_none {t : TimingModule} {id : UInt32} (start : Int) (n : UInt32) (h : t.blocks.lookup id = none) :
    t.nextBlock id start n = ((Except.error Err.invalidArgument, (0 : Int), (n.toNat : Int)), t) := by
  simp only [TimingModule.nextBlock, timestampsForId, h]

private theorem next_some {t : TimingModule} {id : UInt32} (start : Int) (n : UInt32) {x : TimingData} (h : t.blocks.lookup id = some x) :
    t.nextBlock id start n = ((if start = x.timestamp then Except.ok () else Except.error Err.invalidArgument, x.timestamp, x.timestamp + (n.toNat : Int)),
      ⟨t.frames, advance id n.toNat t.blocks⟩) := by
  simp only [TimingModule.nextBlock, timestampsForId, h]

/-- The metadata of a block are accepted if the block starts when the last one of the parameter has ended and it can be what they say; and then it is
that. -/
theorem block_iff (override : Bool) (source : UInt32 → ReconSource) (definitions : List (UInt32 × ParamEntry)) (b : BlockMetadata ObuHeader)
    (hb : ProperMetadata b) (hp : override = false → ∀ d, definitions.lookup b.id = some d → OnePerPlace d) (t : TimingModule) (o : BlockWithData)
    (t' : TimingModule) (hd : (definitions.lookup b.id).isSome) :
    generateBlock override source definitions b t = .ok (o, t') ↔
      (∃ x, t.blocks.lookup b.id = some x ∧ x.timestamp = b.start) ∧
      ((∀ d, definitions.lookup b.id = some d → ManySubblocks d.1) ∨ b.subblocks.length ≤ 2) ∧
      SaysBlock override source definitions b o ∧ t' = ⟨t.frames, advance b.id (o.stop - o.start) t.blocks⟩ := by
  obtain ⟨d, hd⟩ := Option.isSome_iff_exists.mp hd
  have hp' : override = false → OnePerPlace d := fun h => hp h d hd
  unfold generateBlock
  rw [hd]
  cases hl : t.blocks.lookup b.id with
  | none => simp only [next_none _ _ hl]; simp
  | some x =>
    simp only [next_some _ _ hl]
    simp only [Option.some.injEq, exists_eq_left', forall_eq']
    by_cases hst : b.start = x.timestamp
    swap
    · rw [if_neg hst]
      simp only [reduceCtorEq, false_iff, not_and]
      intro h
      exact absurd h.symm hst
    · rw [if_pos hst]
      simp only [bind, bind_ok, hst, true_and]
      constructor
      · rintro ⟨s, h1, h2⟩
        split at h2
        · simp at h2
        next hn =>
          simp only [Decidable.not_not] at hn
          simp only [bind_ok, Except.ok.injEq, Prod.mk.injEq] at h2
          obtain ⟨xs, h3, rfl, rfl⟩ := h2
          rw [subblocks_iff override source d hp' _ hb.1] at h3
          refine ⟨?_, ⟨⟨d, hd, rfl, rfl, ?_, h3.2⟩, hst.symm, rfl⟩, ?_⟩
          · rcases h3.1 with h | h | h
            · exact .inl h
            · right; rw [h]; simp
            · right; omega
          · unfold blockSchedule at h1
            unfold blockDuration
            cases hsch : d.1.base.schedule with
            | some sch =>
              rw [hsch] at h1
              simp only [Option.isSome_some, if_true, Except.ok.injEq] at h1
              subst h1
              simp only [numSubblocksOf, hsch] at hn
              simp only [Option.isSome_some, if_true, true_and]
              refine ⟨hn, ?_⟩
              simp [ParamBase.duration, hsch]
            | none =>
              rw [hsch] at h1
              simp only [Option.isSome_none, Bool.false_eq_true, if_false, bind, bind_ok, Except.ok.injEq] at h1
              obtain ⟨s', h1, rfl⟩ := h1
              simp only [Option.isSome_none, Bool.false_eq_true, if_false]
              exact ⟨s', rfl, (schedule_iff b hb.2 s').mp h1, by trivial⟩
          · simp only [add_sub_cancel_left]
      · rintro ⟨hmany, ⟨⟨d', hd', k1, k2, k3, k4⟩, k5, k6⟩, rfl⟩
        rw [hd, Option.some.injEq] at hd'
        subst hd'
        obtain ⟨⟨pid, sch, xs⟩, start, stop, header, definition⟩ := o
        simp only at k1 k2 k3 k4 k5 k6
        subst k1; subst k2; subst k5; subst k6
        have hxs : generateSubblocks override source d 0 b.subblocks = .ok xs := by
          rw [subblocks_iff override source d hp' _ hb.1]
          refine ⟨?_, k4⟩
          rcases hmany with h | h
          · exact .inl h
          · right; right; omega
        unfold blockSchedule blockDuration
        cases hsch : d.1.base.schedule with
        | some s =>
          rw [hsch] at k3
          simp only at k3
          obtain ⟨rfl, k3, rfl⟩ := k3
          refine ⟨none, by simp, ?_⟩
          simp only [numSubblocksOf, hsch, k3]
          rw [if_neg (by simp), hxs]
          simp only [Except.bind, hst, ParamBase.duration, hsch, add_sub_cancel_left]
          rfl
        | none =>
          rw [hsch] at k3
          simp only at k3
          obtain ⟨s, rfl, k3, rfl⟩ := k3
          refine ⟨some s, ?_, ?_⟩
          · simp [(schedule_iff b hb.2 s).mpr k3, bind, Except.bind]
          · simp only [numSubblocksOf, k3.2.2.1]
            rw [if_neg (by simp), hxs]
            simp only [Except.bind, hst, Option.isSome_none, Bool.false_eq_true, if_false, add_sub_cancel_left]

/-! ### All blocks -/

/-- Blocks that follow one another without a gap, from a time on. -/
def Consecutive : Int → List BlockWithData → Prop
  | _, [] => True
  | t, b :: bs => b.start = t ∧ Consecutive b.stop bs

/-- When the last of the blocks ends. -/
def lastStop : Int → List BlockWithData → Int
  | t, [] => t
  | _, b :: bs => lastStop b.stop bs

/-- The blocks of one parameter. -/
def blocksFor (id : UInt32) (bs : List BlockWithData) : List BlockWithData := bs.filter fun b => b.obu.parameterId = id

theorem consecutive_append (t : Int) (as bs : List BlockWithData) : Consecutive t (as ++ bs) ↔ Consecutive t as ∧ Consecutive (lastStop t as) bs := by
  induction as generalizing t with
  | nil => simp [Consecutive, lastStop]
  | cons a as ih => simp [Consecutive, lastStop, ih, and_assoc]

theorem lastStop_append (t : Int) (as bs : List BlockWithData) : lastStop t (as ++ bs) = lastStop (lastStop t as) bs := by
  induction as generalizing t with
  | nil => rfl
  | cons a as ih => exact ih _

/-- The timing module knows when the last block of each parameter ended. -/
def TimedBlocks (t : TimingModule) (all : List BlockWithData) : Prop :=
  ∀ id, Consecutive 0 (blocksFor id all) ∧ ∀ x, t.blocks.lookup id = some x → x.timestamp = lastStop 0 (blocksFor id all)

/-- The definitions are kept under their ids. -/
def Keyed (definitions : List (UInt32 × ParamEntry)) : Prop := ∀ id d, definitions.lookup id = some d → d.1.base.id = id

private theorem advance_lookup (id k : UInt32) (d : Int) (m : List (UInt32 × TimingData)) :
    (advance id d m).lookup k = if k = id then (m.lookup k).map (fun t => { t with timestamp := t.timestamp + d }) else m.lookup k := by
  induction m with
  | nil => simp [advance]
  | cons x m ih =>
    obtain ⟨i, t⟩ := x
    simp only [advance]
    by_cases hi : i = id
    · subst hi
      rw [if_pos rfl]
      by_cases hk : k = i
      · subst hk; simp [List.lookup]
      · have : (k == i) = false := beq_eq_false_iff_ne.mpr hk
        simp [List.lookup, this, hk]
    · rw [if_neg hi]
      by_cases hk : k = i
      · subst hk
        simp [List.lookup, hi]
      · have : (k == i) = false := beq_eq_false_iff_ne.mpr hk
        simp only [List.lookup, this, ih]

theorem blocks_spec (override : Bool) (source : UInt32 → ReconSource) (definitions : List (UInt32 × ParamEntry)) (hk : Keyed definitions)
    (hp : override = false → ∀ id d, definitions.lookup id = some d → OnePerPlace d) (bs : List (BlockMetadata ObuHeader)) :
    ∀ (t : TimingModule) (out : List BlockWithData) (r : List BlockWithData × TimingModule) (all : List BlockWithData), (∀ b ∈ bs, ProperMetadata b) →
      generateBlocks override source definitions bs t out = .ok r → TimedBlocks t all →
      ∃ new, r.1 = out ++ new ∧ List.Forall₂ (SaysBlock override source definitions) bs new ∧ r.2.frames = t.frames ∧ TimedBlocks r.2 (all ++ new) := by
  induction bs with
  | nil =>
    intro t out r all _ h ht
    simp only [generateBlocks, Except.ok.injEq] at h
    subst h
    exact ⟨[], (List.append_nil _).symm, .nil, rfl, by rw [List.append_nil]; exact ht⟩
  | cons b bs ih =>
    intro t out r all hb h ht
    simp only [generateBlocks, bind, bind_ok] at h
    obtain ⟨⟨o, t'⟩, h1, h2⟩ := h
    have hsome : (definitions.lookup b.id).isSome := by
      unfold generateBlock at h1
      cases hl : definitions.lookup b.id with
      | none => rw [hl] at h1; simp at h1
      | some d => rfl
    have hbb := hb b (List.mem_cons_self ..)
    rw [block_iff override source definitions b hbb (fun h d hd => hp h b.id d hd) t o t' hsome] at h1
    obtain ⟨⟨x, hx, hxs⟩, -, hs, rfl⟩ := h1
    have hid : o.obu.parameterId = b.id := by
      obtain ⟨d, hd, -, he, -⟩ := hs.definition
      rw [he, hk b.id d hd]
    have ht' : TimedBlocks ⟨t.frames, advance b.id (o.stop - o.start) t.blocks⟩ (all ++ [o]) := by
      intro k
      obtain ⟨c1, c2⟩ := ht k
      by_cases hkb : k = b.id
      · subst hkb
        have hf : blocksFor b.id (all ++ [o]) = blocksFor b.id all ++ [o] := by simp [blocksFor, hid]
        have hlast : lastStop 0 (blocksFor b.id all) = o.start := by rw [← c2 x hx, hxs, hs.start]
        rw [hf, consecutive_append, lastStop_append, hlast]
        refine ⟨⟨c1, rfl, trivial⟩, fun y hy => ?_⟩
        rw [advance_lookup, if_pos rfl, hx] at hy
        simp only [Option.map_some, Option.some.injEq] at hy
        subst hy
        simp only [lastStop, hxs, ← hs.start]
        omega
      · have hf : blocksFor k (all ++ [o]) = blocksFor k all := by
          have : ¬ b.id = k := fun h => hkb h.symm
          simp [blocksFor, hid, this]
        rw [hf]
        refine ⟨c1, fun y hy => ?_⟩
        rw [advance_lookup, if_neg hkb] at hy
        exact c2 y hy
    obtain ⟨new, e1, e2, e3, e4⟩ := ih _ _ r (all ++ [o]) (fun b hb' => hb b (List.mem_cons_of_mem _ hb')) h2 ht'
    exact ⟨o :: new, by rw [e1]; simp, .cons hs e2, e3, by simpa using e4⟩

/-- The kinds of parameters that have blocks. -/
inductive BlockKind where
  | mixGain | demixing | reconGain
  deriving DecidableEq, Repr

def kindOf : ParamSpecific → Option BlockKind
  | .mixGain _ => some .mixGain
  | .demixing _ => some .demixing
  | .reconGain _ => some .reconGain
  | _ => none

/-- The metadata that were given for a kind of parameters. -/
def metadataOf (definitions : List (UInt32 × ParamEntry)) (k : BlockKind) (bs : List (BlockMetadata ObuHeader)) : List (BlockMetadata ObuHeader) :=
  bs.filter fun b => ((definitions.lookup b.id).bind fun d => kindOf d.1.spec) = some k

/-- The metadata of that kind for which there is no block yet. -/
def waitingIn (g : BlockGenerator) : BlockKind → List (BlockMetadata ObuHeader)
  | .mixGain => g.mixGain
  | .demixing => g.demixing
  | .reconGain => g.reconGain

/-- The blocks of a kind. -/
def blocksOfKind (k : BlockKind) (bs : List BlockWithData) : List BlockWithData := bs.filter fun b => kindOf b.definition.spec = some k

/-- What is known after the metadata `added` were given and the blocks `out` were made; recon gains were measured from `sources`. -/
structure BlocksInv (override : Bool) (definitions : List (UInt32 × ParamEntry)) (sources : (UInt32 → ReconSource) → Prop) (g : BlockGenerator)
    (t : TimingModule) (added : List (BlockMetadata ObuHeader)) (out : BlockKind → List BlockWithData) : Prop where
  sameOverride : g.override = override
  sameDefinitions : g.definitions = definitions
  order : ∃ all, TimedBlocks t all ∧ ∀ k, out k = blocksOfKind k all
  made : ∀ k, ∃ done, metadataOf definitions k added = done ++ waitingIn g k ∧
    List.Forall₂ (fun b o => ∃ source, sources source ∧ SaysBlock override source definitions b o) done (out k)

theorem inv_add {override : Bool} {definitions : List (UInt32 × ParamEntry)} {sources : (UInt32 → ReconSource) → Prop} {g : BlockGenerator}
    {t : TimingModule} {added : List (BlockMetadata ObuHeader)} {out : BlockKind → List BlockWithData}
    (h : BlocksInv override definitions sources g t added out) (b : BlockMetadata ObuHeader) {g' : BlockGenerator} (hg : g.addMetadata b = .ok g') :
    BlocksInv override definitions sources g' t (added ++ [b]) out := by
  unfold BlockGenerator.addMetadata at hg
  cases hd0 : g.definitions.lookup b.id with
  | none => rw [hd0] at hg; simp at hg
  | some d =>
    have hd := hd0
    rw [h.sameDefinitions] at hd
    rw [hd0] at hg
    simp only at hg
    have key : g'.override = g.override ∧ g'.definitions = g.definitions ∧
        ∀ k, waitingIn g' k = waitingIn g k ++ metadataOf definitions k [b] := by
      cases hs : d.1.spec <;> rw [hs] at hg <;> simp only [Except.ok.injEq] at hg <;> subst hg <;> refine ⟨rfl, rfl, fun k => ?_⟩ <;>
        cases k <;> simp [waitingIn, metadataOf, hd, hs, kindOf]
    obtain ⟨k1, k2, k3⟩ := key
    refine ⟨k1.trans h.sameOverride, k2.trans h.sameDefinitions, h.order, fun k => ?_⟩
    obtain ⟨done, e1, e2⟩ := h.made k
    refine ⟨done, ?_, e2⟩
    rw [k3]
    unfold metadataOf at e1 ⊢
    rw [List.filter_append, e1, List.append_assoc]

/-- The queue of one kind is emptied. -/
def emptied (g : BlockGenerator) : BlockKind → BlockGenerator
  | .mixGain => { g with mixGain := [] }
  | .demixing => { g with demixing := [] }
  | .reconGain => { g with reconGain := [] }

theorem inv_generate {override : Bool} {definitions : List (UInt32 × ParamEntry)} {sources : (UInt32 → ReconSource) → Prop} {g : BlockGenerator}
    {t : TimingModule} {added : List (BlockMetadata ObuHeader)} {out : BlockKind → List BlockWithData} (hk : Keyed definitions)
    (hp : override = false → ∀ id d, definitions.lookup id = some d → OnePerPlace d) (hb : ∀ b ∈ added, ProperMetadata b)
    (h : BlocksInv override definitions sources g t added out) (k : BlockKind) (source : UInt32 → ReconSource) (hs : sources source) (o : List BlockWithData)
    {r : List BlockWithData × TimingModule} (hr : generateBlocks g.override source g.definitions (waitingIn g k) t o = .ok r) :
    ∃ new, r.1 = o ++ new ∧ r.2.frames = t.frames ∧ blocksOfKind k new = new ∧
      BlocksInv override definitions sources (emptied g k) r.2 added (fun k' => if k' = k then out k ++ new else out k') := by
  obtain ⟨all, ht, hall⟩ := h.order
  obtain ⟨done, e1, e2⟩ := h.made k
  have hmem : ∀ b ∈ waitingIn g k, b ∈ added ∧ ((definitions.lookup b.id).bind fun d => kindOf d.1.spec) = some k := by
    intro b hb'
    have : b ∈ metadataOf definitions k added := by rw [e1]; exact List.mem_append_right _ hb'
    unfold metadataOf at this
    rw [List.mem_filter] at this
    exact ⟨this.1, by simpa using this.2⟩
  rw [h.sameOverride, h.sameDefinitions] at hr
  obtain ⟨new, n1, n2, n3, n4⟩ := blocks_spec override source definitions hk hp (waitingIn g k) t o r all (fun b hb' => hb b (hmem b hb').1) hr ht
  have hkind : ∀ x ∈ new, kindOf x.definition.spec = some k := by
    have hm : ∀ b ∈ waitingIn g k, ((definitions.lookup b.id).bind fun d => kindOf d.1.spec) = some k := fun b hb' => (hmem b hb').2
    clear * - n2 hm
    generalize waitingIn g k = ws at n2 hm
    induction n2 with
    | nil => intro x hx; cases hx
    | @cons b x ws new a _ ih =>
      intro y hy
      rcases List.mem_cons.mp hy with e | hy'
      · subst e
        obtain ⟨d, hd, he, -⟩ := a.definition
        have := hm b (List.mem_cons_self ..)
        rw [hd] at this
        rw [he]
        exact this
      · exact ih (fun b hb => hm b (List.mem_cons_of_mem _ hb)) y hy'
  have hsame : blocksOfKind k new = new := by
    unfold blocksOfKind
    rw [List.filter_eq_self]
    intro x hx
    simp [hkind x hx]
  refine ⟨new, n1, n3, hsame, ?_, ?_, ⟨all ++ new, n4, fun k' => ?_⟩, fun k' => ?_⟩
  · cases k <;> exact h.sameOverride
  · cases k <;> exact h.sameDefinitions
  · by_cases hkk : k' = k
    · subst hkk
      simp only [if_true]
      rw [hall, show blocksOfKind k' (all ++ new) = blocksOfKind k' all ++ blocksOfKind k' new from List.filter_append .., hsame]
    · rw [if_neg hkk, hall, show blocksOfKind k' (all ++ new) = blocksOfKind k' all ++ blocksOfKind k' new from List.filter_append ..]
      have : blocksOfKind k' new = [] := by
        unfold blocksOfKind
        rw [List.filter_eq_nil_iff]
        intro x hx
        rw [hkind x hx]
        simp only [Option.some.injEq, decide_eq_true_eq]
        exact fun he => hkk he.symm
      rw [this, List.append_nil]
  · by_cases hkk : k' = k
    · subst hkk
      simp only [if_true]
      refine ⟨metadataOf definitions k' added, ?_, ?_⟩
      · cases k' <;> simp [waitingIn, emptied]
      · rw [e1]
        exact List.rel_append e2 (n2.imp fun b o hbo => ⟨source, hs, hbo⟩)
    · rw [if_neg hkk]
      obtain ⟨done', e1', e2'⟩ := h.made k'
      refine ⟨done', ?_, e2'⟩
      rw [e1']
      congr 1
      cases k <;> cases k' <;> first | rfl | exact absurd rfl hkk

/-! ### Runs -/

/-- What can be asked of a generator of parameter blocks. -/
inductive BlocksOp where
  | add (b : BlockMetadata ObuHeader)
  | mixGain
  | demixing
  | reconGain (source : UInt32 → ReconSource)

/-- A generator, the timing module it was given, and the blocks that it made. -/
structure BlocksRun where
  generator : BlockGenerator
  timing : TimingModule
  mixGain : List BlockWithData
  demixing : List BlockWithData
  reconGain : List BlockWithData

def BlocksRun.out (r : BlocksRun) : BlockKind → List BlockWithData
  | .mixGain => r.mixGain
  | .demixing => r.demixing
  | .reconGain => r.reconGain

/-- One call.  Metadata may be rejected; the generator is then as before. -/
def BlocksRun.call (r : BlocksRun) : BlocksOp → Except Err BlocksRun
  | .add b => match r.generator.addMetadata b with
    | .error _ => .ok r
    | .ok g => .ok ⟨g, r.timing, r.mixGain, r.demixing, r.reconGain⟩
  | .mixGain => do
    let x ← r.generator.generateMixGain r.timing r.mixGain
    .ok ⟨x.1, x.2.1, x.2.2, r.demixing, r.reconGain⟩
  | .demixing => do
    let x ← r.generator.generateDemixing r.timing r.demixing
    .ok ⟨x.1, x.2.1, r.mixGain, x.2.2, r.reconGain⟩
  | .reconGain s => do
    let x ← r.generator.generateReconGain s r.timing r.reconGain
    .ok ⟨x.1, x.2.1, r.mixGain, r.demixing, x.2.2⟩

def BlocksRun.calls : List BlocksOp → BlocksRun → Except Err BlocksRun
  | [], r => .ok r
  | c :: cs, r => do
    let r ← r.call c
    BlocksRun.calls cs r

/-- The metadata in a list of calls. -/
def metadataIn : List BlocksOp → List (BlockMetadata ObuHeader)
  | [] => []
  | .add b :: cs => b :: metadataIn cs
  | _ :: cs => metadataIn cs

private theorem unknown_rejected {g : BlockGenerator} {b : BlockMetadata ObuHeader} {e : Err} (h : g.addMetadata b = .error e) (k : BlockKind) :
    metadataOf g.definitions k [b] = [] := by
  unfold BlockGenerator.addMetadata at h
  cases hd : g.definitions.lookup b.id with
  | none => simp [metadataOf, hd]
  | some d =>
    rw [hd] at h
    simp only at h
    cases hs : d.1.spec <;> rw [hs] at h <;> simp at h

private theorem run_blocks {override : Bool} {definitions : List (UInt32 × ParamEntry)} (hk : Keyed definitions)
    (hp : override = false → ∀ id d, definitions.lookup id = some d → OnePerPlace d) {sources : (UInt32 → ReconSource) → Prop} (hno : sources noSource)
    (ops : List BlocksOp) : ∀ (r r' : BlocksRun) (added : List (BlockMetadata ObuHeader)), (∀ s, .reconGain s ∈ ops → sources s) →
      (∀ b ∈ added ++ metadataIn ops, ProperMetadata b) → BlocksInv override definitions sources r.generator r.timing added r.out →
      BlocksRun.calls ops r = .ok r' → BlocksInv override definitions sources r'.generator r'.timing (added ++ metadataIn ops) r'.out := by
  induction ops with
  | nil =>
    intro r r' added _ _ h hr
    simp only [BlocksRun.calls, Except.ok.injEq] at hr
    subst hr
    rw [show metadataIn [] = [] from rfl, List.append_nil]
    exact h
  | cons c cs ih =>
    intro r r' added hsrc hb h hr
    simp only [BlocksRun.calls, bind, bind_ok] at hr
    obtain ⟨r1, h1, h2⟩ := hr
    have hsrc' : ∀ s, .reconGain s ∈ cs → sources s := fun s hs => hsrc s (List.mem_cons_of_mem _ hs)
    cases c with
    | add b =>
      simp only [metadataIn] at hb ⊢
      have hb' : ∀ x ∈ (added ++ [b]) ++ metadataIn cs, ProperMetadata x := by simpa using hb
      have hres : added ++ b :: metadataIn cs = (added ++ [b]) ++ metadataIn cs := by simp
      rw [hres]
      simp only [BlocksRun.call] at h1
      cases ha : r.generator.addMetadata b with
      | error e =>
        rw [ha] at h1
        simp only [Except.ok.injEq] at h1
        subst h1
        refine ih r r' (added ++ [b]) hsrc' hb' ⟨h.sameOverride, h.sameDefinitions, h.order, fun k => ?_⟩ h2
        obtain ⟨done, e1, e2⟩ := h.made k
        refine ⟨done, ?_, e2⟩
        have := unknown_rejected ha k
        rw [h.sameDefinitions] at this
        unfold metadataOf at e1 this ⊢
        rw [List.filter_append, this, List.append_nil]
        exact e1
      | ok g =>
        rw [ha] at h1
        simp only [Except.ok.injEq] at h1
        subst h1
        refine ih ⟨g, r.timing, r.mixGain, r.demixing, r.reconGain⟩ r' (added ++ [b]) hsrc' hb' ?_ h2
        have : BlocksRun.out ⟨g, r.timing, r.mixGain, r.demixing, r.reconGain⟩ = r.out := by funext k'; cases k' <;> rfl
        rw [this]
        exact inv_add h b ha
    | mixGain =>
      simp only [metadataIn] at hb ⊢
      simp only [BlocksRun.call, BlockGenerator.generateMixGain, bind, bind_ok, Except.ok.injEq] at h1
      obtain ⟨x, ⟨y, h3, rfl⟩, rfl⟩ := h1
      obtain ⟨new, n1, -, -, n4⟩ := inv_generate hk hp (fun b hb' => hb b (List.mem_append_left _ hb')) h .mixGain noSource hno r.mixGain h3
      refine ih _ r' added hsrc' hb ?_ h2
      have : BlocksRun.out ⟨{ r.generator with mixGain := [] }, y.2, y.1, r.demixing, r.reconGain⟩ = fun k' => if k' = .mixGain then r.out .mixGain ++ new else r.out k' := by
        funext k'; cases k' <;> simp [BlocksRun.out, n1]
      rw [this]
      exact n4
    | demixing =>
      simp only [metadataIn] at hb ⊢
      simp only [BlocksRun.call, BlockGenerator.generateDemixing, bind, bind_ok, Except.ok.injEq] at h1
      obtain ⟨x, ⟨y, h3, rfl⟩, rfl⟩ := h1
      obtain ⟨new, n1, -, -, n4⟩ := inv_generate hk hp (fun b hb' => hb b (List.mem_append_left _ hb')) h .demixing noSource hno r.demixing h3
      refine ih _ r' added hsrc' hb ?_ h2
      have : BlocksRun.out ⟨{ r.generator with demixing := [] }, y.2, r.mixGain, y.1, r.reconGain⟩ = fun k' => if k' = .demixing then r.out .demixing ++ new else r.out k' := by
        funext k'; cases k' <;> simp [BlocksRun.out, n1]
      rw [this]
      exact n4
    | reconGain s =>
      simp only [metadataIn] at hb ⊢
      simp only [BlocksRun.call, BlockGenerator.generateReconGain, bind, bind_ok, Except.ok.injEq] at h1
      obtain ⟨x, ⟨y, h3, rfl⟩, rfl⟩ := h1
      obtain ⟨new, n1, -, -, n4⟩ := inv_generate hk hp (fun b hb' => hb b (List.mem_append_left _ hb')) h .reconGain s (hsrc s (List.mem_cons_self ..)) r.reconGain h3
      refine ih _ r' added hsrc' hb ?_ h2
      have : BlocksRun.out ⟨{ r.generator with reconGain := [] }, y.2, r.mixGain, r.demixing, y.1⟩ = fun k' => if k' = .reconGain then r.out .reconGain ++ new else r.out k' := by
        funext k'; cases k' <;> simp [BlocksRun.out, n1]
      rw [this]
      exact n4

/-- **C45 (blocks say what their metadata say).**  A generator of parameter blocks is given metadata and asked for blocks, in any order, without a
failure.  Then the blocks of each kind are, one for one and in the order in which the metadata of known parameters were given, what these say; those
without a block are still waiting, at the end.  The blocks of each parameter follow one another from 0 on without a gap. -/
theorem C45_blocks_say_what_their_metadata_say {override : Bool} {definitions : List (UInt32 × ParamEntry)} {g : BlockGenerator}
    (hg : BlockGenerator.create override definitions = .ok g) (hk : Keyed definitions)
    (hp : override = false → ∀ id d, definitions.lookup id = some d → OnePerPlace d) (t : TimingModule)
    (ht : ∀ id x, t.blocks.lookup id = some x → x.timestamp = 0) (ops : List BlocksOp) (hops : ∀ b ∈ metadataIn ops, ProperMetadata b) (r : BlocksRun)
    (hr : BlocksRun.calls ops ⟨g, t, [], [], []⟩ = .ok r) :
    (∀ k, ∃ done, metadataOf definitions k (metadataIn ops) = done ++ waitingIn r.generator k ∧
      List.Forall₂ (fun b o => ∃ source, (source = noSource ∨ .reconGain source ∈ ops) ∧ SaysBlock override source definitions b o) done (r.out k)) ∧
    ∃ all, (∀ k, r.out k = blocksOfKind k all) ∧ ∀ id, Consecutive 0 (blocksFor id all) := by
  unfold BlockGenerator.create at hg
  split at hg
  · simp at hg
  · rw [Except.ok.injEq] at hg
    subst hg
    have h0 : BlocksInv override definitions (fun s => s = noSource ∨ .reconGain s ∈ ops) ⟨override, definitions, [], [], []⟩ t []
        (BlocksRun.out ⟨⟨override, definitions, [], [], []⟩, t, [], [], []⟩) :=
      ⟨rfl, rfl, ⟨[], fun id => ⟨trivial, fun x hx => ht id x hx⟩, fun k => by cases k <;> rfl⟩, fun k => ⟨[], by cases k <;> rfl, by cases k <;> exact .nil⟩⟩
    have := run_blocks hk hp (.inl rfl) ops _ r [] (fun s hs => .inr hs) (by simpa using hops) h0 hr
    rw [List.nil_append] at this
    obtain ⟨all, h1, h2⟩ := this.order
    exact ⟨this.made, all, h2, fun id => (h1 id).1⟩

/-- **C45 (which metadata are accepted).**  The metadata of a block of a defined parameter give a block if and only if it starts where the last one of
this parameter ended and some block is what they say (and there are at most two subblocks, unless they are mix gains); and it is that block. -/
theorem C45_accepted_iff (override : Bool) (source : UInt32 → ReconSource) (definitions : List (UInt32 × ParamEntry)) (b : BlockMetadata ObuHeader)
    (hb : ProperMetadata b) (d : ParamEntry) (hd : definitions.lookup b.id = some d) (hp : override = false → OnePerPlace d) (t : TimingModule)
    (o : BlockWithData) :
    (∃ t', generateBlock override source definitions b t = .ok (o, t')) ↔
      (∃ x, t.blocks.lookup b.id = some x ∧ x.timestamp = b.start) ∧ (ManySubblocks d.1 ∨ b.subblocks.length ≤ 2) ∧
      SaysBlock override source definitions b o := by
  have hp' : override = false → ∀ d, definitions.lookup b.id = some d → OnePerPlace d := by
    intro h d' hd'
    rw [hd, Option.some.injEq] at hd'
    exact hd' ▸ hp h
  have key := fun t' => block_iff override source definitions b hb hp' t o t' (by rw [hd]; rfl)
  simp only [hd, Option.some.injEq, forall_eq'] at key
  constructor
  · rintro ⟨t', h⟩
    have := (key t').mp h
    exact ⟨this.1, this.2.1, this.2.2.1⟩
  · rintro ⟨h1, h2, h3⟩
    exact ⟨_, (key _).mpr ⟨h1, h2, h3, rfl⟩⟩

/-- **C45 (measured recon gains).**  Which order a hash map has does not matter for the recon gains that were measured, unless a layer adds two
demixed channels that have the same place. -/
theorem C45_recon_gains_do_not_depend_on_the_order (gain : Label → Except Err Rat) (rank rank' : Label → Nat) (index : Nat) (layer below : ChannelNumbers)
    (h : layer.surround ≤ 7) (h1 : below.surround ≤ 1 → layer.surround < 3) (h2 : below.surround ≤ 2 → layer.surround < 7) (r : UInt32 × List UInt8) :
    computeReconGains gain rank index layer below true = .ok r ↔ computeReconGains gain rank' index layer below true = .ok r := by
  by_cases hi : 0 < index
  · have k := fun rank => computed_iff gain rank index hi layer below h h1 h2 ⟨r.1, r.2⟩
    exact (k rank).trans (k rank').symm
  · unfold computeReconGains
    rw [if_neg hi]
    simp [bind, Except.bind]

/-! ### Not vacuous -/

/-- Mix gains with the schedule in the blocks; recon gains of stereo that is demixed from mono. -/
private def exampleDefinitions : List (UInt32 × ParamEntry) :=
  [(5, (⟨⟨5, 48000, 0, none⟩, .mixGain 0⟩, none)),
   (6, (⟨⟨6, 48000, 0, some ⟨8, 8, 1, []⟩⟩, .reconGain [false, true]⟩, some (300, [⟨1, 0, 0, 0⟩, ⟨2, 0, 0, 0⟩])))]

private def exampleOps : List BlocksOp :=
  [.add ⟨5, 10, 0, [⟨4, .mixGain (.step 100)⟩, ⟨6, .mixGain (.linear 100 (-7))⟩], 0, { obuType := 0 }⟩,
   .add ⟨6, 0, 0, [⟨0, .reconGain [[], [(2, 127)]]⟩], 0, { obuType := 0, redundantCopy := true }⟩,
   .add ⟨7, 10, 0, [], 0, { obuType := 0 }⟩,
   .mixGain,
   .reconGain fun _ => ⟨some fun _ => .ok (1 / 2), fun _ => 0⟩,
   .add ⟨5, 10, 10, [⟨0, .mixGain (.bezier 1 2 3 255)⟩], 10, { obuType := 0 }⟩, .mixGain,
   .add ⟨5, 10, 10, [⟨0, .mixGain (.step 0)⟩], 20, { obuType := 0 }⟩]

private def exampleTiming : TimingModule := ⟨[], [(5, ⟨48000, 0⟩), (6, ⟨48000, 0⟩)]⟩

private def madeBlocks (r : Except Err BlocksRun) : Option (List BlockWithData × List BlockWithData × Nat) := match r with
  | .error _ => none
  | .ok r => some (r.mixGain, r.reconGain, r.generator.mixGain.length)

example : madeBlocks (BlocksRun.calls exampleOps ⟨⟨false, exampleDefinitions, [], [], []⟩, exampleTiming, [], [], []⟩) =
    some ([⟨⟨5, some ⟨10, 0, 2, [4, 6]⟩, [some (.mixGain (.step 100)), some (.mixGain (.linear 100 (-7)))]⟩, 0, 10, { obuType := 3 }, ⟨⟨5, 48000, 0, none⟩, .mixGain 0⟩⟩,
        ⟨⟨5, some ⟨10, 10, 1, []⟩, [some (.mixGain (.bezier 1 2 3 255))]⟩, 10, 20, { obuType := 3 }, ⟨⟨5, 48000, 0, none⟩, .mixGain 0⟩⟩],
      [⟨⟨6, none, [some (.reconGain [false, true] [none, some ⟨4, [0, 0, 127, 0, 0, 0, 0, 0, 0, 0, 0, 0]⟩])]⟩, 0, 8, { obuType := 3, redundantCopy := true },
        ⟨⟨6, 48000, 0, some ⟨8, 8, 1, []⟩⟩, .reconGain [false, true]⟩⟩], 1) := by decide +kernel

example : Keyed exampleDefinitions ∧ (∀ id d, exampleDefinitions.lookup id = some d → OnePerPlace d) ∧
    (∀ id x, exampleTiming.blocks.lookup id = some x → x.timestamp = 0) ∧ (∀ b ∈ metadataIn exampleOps, ProperMetadata b) := by
  have hl : ∀ id d, exampleDefinitions.lookup id = some d → (id, d) ∈ exampleDefinitions := by
    intro id d h
    simp only [exampleDefinitions, List.lookup] at h
    split at h
    next he => rw [Option.some.injEq] at h; rw [← h, show id = 5 from by simpa using he]; exact List.mem_cons_self ..
    next =>
      split at h
      next he => rw [Option.some.injEq] at h; rw [← h, show id = 6 from by simpa using he]; exact List.mem_cons_of_mem _ (List.mem_cons_self ..)
      next => simp at h
  refine ⟨fun id d h => ?_, fun id d h => ?_, fun id x h => ?_, ?_⟩
  · have := hl id d h
    simp only [exampleDefinitions, List.mem_cons, Prod.mk.injEq, List.not_mem_nil, or_false] at this
    rcases this with ⟨rfl, rfl⟩ | ⟨rfl, rfl⟩ <;> rfl
  · have := hl id d h
    simp only [exampleDefinitions, List.mem_cons, Prod.mk.injEq, List.not_mem_nil, or_false] at this
    rcases this with ⟨rfl, rfl⟩ | ⟨rfl, rfl⟩
    · intro i below layer h
      simp at h
    · intro i below layer h1 h2
      match i with
      | 0 =>
        simp at h1 h2
        subst h1; subst h2
        decide
      | i + 1 => simp at h2
  · simp only [exampleTiming, List.lookup] at h
    split at h
    next => rw [Option.some.injEq] at h; rw [← h]
    next =>
      split at h
      next => rw [Option.some.injEq] at h; rw [← h]
      next => simp at h
  · intro b hb
    simp only [exampleOps, metadataIn, List.mem_cons, List.not_mem_nil, or_false] at hb
    rcases hb with rfl | rfl | rfl | rfl | rfl <;> refine ⟨?_, by simp⟩ <;> intro m hm <;>
      simp only [List.mem_cons, List.not_mem_nil, or_false] at hm <;> (try rcases hm with rfl | rfl) <;> (try subst hm) <;>
      first | (intro l hl; simp [layersIn] at hl; done) | (intro l hl; simp only [layersIn, List.mem_cons, List.not_mem_nil, or_false] at hl; rcases hl with rfl | rfl <;> simp)

/-- The order does matter from mono to three surround channels: R2 and R3 have the same place. -/
example : (computeReconGains (fun l => if l = .demixedR2 then .ok 0 else .ok 1) (fun l => if l = .demixedR2 then 0 else 1) 1 ⟨3, 1, 2, 0⟩ ⟨1, 0, 0, 0⟩ true).toOption =
      some (5, [255, 0, 255, 0, 0, 0, 0, 0, 0, 0, 0, 0]) ∧
    (computeReconGains (fun l => if l = .demixedR2 then .ok 0 else .ok 1) (fun l => if l = .demixedR2 then 1 else 0) 1 ⟨3, 1, 2, 0⟩ ⟨1, 0, 0, 0⟩ true).toOption =
      some (5, [255, 0, 0, 0, 0, 0, 0, 0, 0, 0, 0, 0]) := by decide +kernel

end Iamf.Props
