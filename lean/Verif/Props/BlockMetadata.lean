import Verif.Cli.BlockMetadata
import Verif.Props.BlockGenerator
import Mathlib.Data.Nat.Bitwise
/-
  C60: metadata from the data of parameter blocks, and back.
-/
namespace Iamf.Props
open Iamf

/-! ### Specification -/

/-- A gain for each of the twelve positions: zero where the flags say that there is none. -/
structure TwelveGains (e : ReconGainElement) : Prop where
  length : e.gains.length = 12
  others : ∀ k < 12, e.flag.toNat.testBit k = false → e.gains[k]? = some 0

/-- The flags are those of the twelve positions. -/
def KnownPositions (x : ParamData) : Prop := match x with
  | .reconGain _ es => ∀ e, some e ∈ es → e.flag.toNat < 2 ^ 12
  | _ => True

/-- Data of one of the three kinds of parameters that metadata are made of, for this definition. -/
def DataFor (s : ParamSpecific) (x : ParamData) : Prop := match s, x with
  | .mixGain _, .mixGain _ => True
  | .demixing _, .demixing d => d.dmixpMode.toNat < 8
  | .reconGain flags, .reconGain flags' es => flags' = flags ∧ List.Forall₂ (fun f e => e.isSome = f) flags es ∧
      ∀ e, some e ∈ es → TwelveGains e
  | _, _ => False

/-- The same metadata: the maps of recon gains may be iterated over in any order. -/
def SameMetadata (m m' : SubblockMetadata) : Prop :=
  m'.duration = m.duration ∧ match m.content, m'.content with
    | .reconGain l, .reconGain l' => List.Forall₂ List.Perm l l'
    | c, c' => c' = c

/-- The data without the gains at positions above the twelfth, which have no meaning. -/
def knownElement (e : ReconGainElement) : ReconGainElement := ⟨UInt32.ofNat (e.flag.toNat % 2 ^ 12), e.gains⟩

def knownData : ParamData → ParamData
  | .reconGain flags es => .reconGain flags (es.map (Option.map knownElement))
  | x => x

/-! ### Recon gains -/

private theorem mask_bit (flag mask : UInt32) (i : Nat) (h : mask.toNat = 2 ^ i) : (flag &&& mask ≠ 0) ↔ flag.toNat.testBit i = true := by
  have : (flag &&& mask).toNat = (flag.toNat.testBit i).toNat * 2 ^ i := by
    rw [UInt32.toNat_and, h, Nat.and_two_pow]
  constructor
  · intro hn
    cases hb : flag.toNat.testBit i with
    | true => rfl
    | false =>
      rw [hb] at this
      exact absurd (UInt32.toNat_inj.mp (by simpa using this)) hn
  · intro hb hz
    rw [hb, hz] at this
    simp only [Bool.toNat_true, one_mul] at this
    have h0 : (0 : UInt32).toNat = 0 := rfl
    have := Nat.two_pow_pos i
    omega

private theorem next_mask (mask : UInt32) (i : Nat) (hi : i + 1 < 32) (h : mask.toNat = 2 ^ i) : (mask <<< 1).toNat = 2 ^ (i + 1) := by
  rw [UInt32.toNat_shiftLeft, h, show (1 : UInt32).toNat % 32 = 1 from rfl, Nat.shiftLeft_eq, ← pow_succ]
  exact Nat.mod_eq_of_lt (Nat.pow_lt_pow_right (by decide) hi)

private theorem flagged_mem (flag : UInt32) : ∀ (gs : List UInt8) (i : Nat) (mask : UInt32), mask.toNat = 2 ^ i → i + gs.length < 32 →
    ∀ p : Nat × UInt8, p ∈ (flaggedGains flag i mask gs).map (fun p => (p.1.toNat, p.2.toUInt8)) ↔
      i ≤ p.1 ∧ gs[p.1 - i]? = some p.2 ∧ flag.toNat.testBit p.1 = true
  | [], i, mask, _, _, p => by simp [flaggedGains]
  | g :: gs, i, mask, hm, hl, p => by
    have hl' : i + 1 + gs.length < 32 := by simp only [List.length_cons] at hl; omega
    have ih := flagged_mem flag gs (i + 1) (mask <<< 1) (next_mask mask i (by omega) hm) hl' p
    have hi : (UInt32.ofNat i).toNat = i := by rw [UInt32.toNat_ofNat']; exact Nat.mod_eq_of_lt (by omega)
    have hg : g.toUInt32.toUInt8 = g := by simp
    have hb := mask_bit flag mask i hm
    have hstep : i + 1 ≤ p.1 → (g :: gs)[p.1 - i]? = gs[p.1 - (i + 1)]? := by
      intro hp
      rw [show p.1 - i = (p.1 - (i + 1)) + 1 by omega, List.getElem?_cons_succ]
    unfold flaggedGains
    split
    · rename_i hf
      rw [List.map_cons, List.mem_cons, ih]
      simp only [hi, hg]
      constructor
      · rintro (rfl | ⟨h1, h2, h3⟩)
        · exact ⟨Nat.le_refl _, by simp, hb.mp hf⟩
        · exact ⟨by omega, by rw [hstep h1]; exact h2, h3⟩
      · rintro ⟨h1, h2, h3⟩
        by_cases he : p.1 = i
        · refine .inl (Prod.ext he ?_)
          rw [he, Nat.sub_self] at h2
          simpa using h2.symm
        · exact .inr ⟨by omega, by rw [← hstep (by omega)]; exact h2, h3⟩
    · rename_i hf
      rw [ih]
      constructor
      · rintro ⟨h1, h2, h3⟩
        exact ⟨by omega, by rw [hstep h1]; exact h2, h3⟩
      · rintro ⟨h1, h2, h3⟩
        have he : p.1 ≠ i := fun he => hf (hb.mpr (by rw [← he]; exact h3))
        exact ⟨by omega, by rw [← hstep (by omega)]; exact h2, h3⟩

private theorem flagged_keys (flag : UInt32) : ∀ (gs : List UInt8) (i : Nat) (mask : UInt32), i + gs.length < 32 →
    (∀ p ∈ flaggedGains flag i mask gs, i ≤ p.1.toNat) ∧ ((flaggedGains flag i mask gs).map Prod.fst).Nodup
  | [], i, mask, _ => by simp [flaggedGains]
  | g :: gs, i, mask, hl => by
    obtain ⟨h1, h2⟩ := flagged_keys flag gs (i + 1) (mask <<< 1) (by simp only [List.length_cons] at hl; omega)
    have hi : (UInt32.ofNat i).toNat = i := by rw [UInt32.toNat_ofNat']; exact Nat.mod_eq_of_lt (by omega)
    unfold flaggedGains
    split
    · constructor
      · intro p hp
        rcases List.mem_cons.mp hp with rfl | hp
        · simp [hi]
        · have := h1 p hp; omega
      · rw [List.map_cons, List.nodup_cons]
        refine ⟨fun hc => ?_, h2⟩
        obtain ⟨p, hp, he⟩ := List.mem_map.mp hc
        have := h1 p hp
        rw [he, hi] at this
        omega
    · exact ⟨fun p hp => by have := h1 p hp; omega, h2⟩

private theorem known_bit (e : ReconGainElement) (k : Nat) : (knownElement e).flag.toNat.testBit k = (decide (k < 12) && e.flag.toNat.testBit k) := by
  unfold knownElement
  have h : e.flag.toNat % 2 ^ 12 < 2 ^ 12 := Nat.mod_lt _ (by decide)
  simp only
  rw [UInt32.toNat_ofNat', Nat.mod_eq_of_lt (by omega), Nat.testBit_mod_two_pow]

private theorem layer_gains (e : ReconGainElement) (he : TwelveGains e) (l : List (UInt32 × UInt32)) (hl : (layerMetadata (some e)).Perm l) :
    HasGains (l.map fun p => (p.1.toNat, p.2.toUInt8)) (knownElement e) := by
  have hmem : ∀ p : Nat × UInt8, p ∈ l.map (fun p => (p.1.toNat, p.2.toUInt8)) ↔ e.gains[p.1]? = some p.2 ∧ e.flag.toNat.testBit p.1 = true := by
    intro p
    rw [← (hl.map fun p => (p.1.toNat, p.2.toUInt8)).mem_iff]
    have := flagged_mem e.flag e.gains 0 1 rfl (by rw [he.length]; decide) p
    simpa [layerMetadata] using this
  have hpos : ∀ p ∈ l.map (fun p => (p.1.toNat, p.2.toUInt8)), p.1 < 12 := by
    intro p hp
    have := (List.getElem?_eq_some_iff.mp ((hmem p).mp hp).1).1
    rw [he.length] at this
    exact this
  refine ⟨he.length, hpos, fun k => ?_, fun p hp => ((hmem p).mp hp).1, fun k hk hn => ?_⟩
  · rw [known_bit, Bool.eq_iff_iff]
    simp only [Bool.and_eq_true, decide_eq_true_eq, List.any_eq_true]
    constructor
    · rintro ⟨h1, h2⟩
      refine ⟨(k, e.gains[k]'(by rw [he.length]; exact h1)), (hmem _).mpr ⟨List.getElem?_eq_getElem _, h2⟩, rfl⟩
    · rintro ⟨p, h1, rfl⟩
      exact ⟨hpos p h1, ((hmem p).mp h1).2⟩
  · refine he.others k hk ?_
    cases hb : e.flag.toNat.testBit k with
    | false => rfl
    | true =>
      exact absurd rfl (hn (k, e.gains[k]'(by rw [he.length]; exact hk)) ((hmem _).mpr ⟨List.getElem?_eq_getElem _, hb⟩))

/-! ### There and back -/

/-- **C60 (round trip).** Data of a mix gain, demixing or recon gain parameter always have metadata, with the given duration.  From these
metadata, in whatever order maps are iterated over, the generator of parameter blocks makes the same data again, except for gains at
positions that do not exist. -/
theorem C60_data_survive_metadata (source : UInt32 → ReconSource) (d : ParamEntry) (duration : Option UInt32) (x : ParamData)
    (hx : DataFor d.1.spec x) :
    ∃ m, subblockMetadata d.1.spec duration x = .ok (m, none) ∧ m.duration = duration.getD 0 ∧
      ∀ m', SameMetadata m m' → ∀ index, (ManySubblocks d.1 ∨ index ≤ 1) → generateSubblock true source d index m' = .ok (knownData x) := by
  have back : ∀ m m' : SubblockMetadata, (∀ l, m.content ≠ .reconGain l) → SameMetadata m m' → DistinctKeys m' ∧ m'.content = m.content := by
    rintro ⟨du, c⟩ ⟨du', c'⟩ hn ⟨-, h⟩
    have hc : c' = c := by
      cases c with
      | reconGain l => exact absurd rfl (hn l)
      | _ => exact h
    subst hc
    refine ⟨?_, rfl⟩
    cases c' with
    | reconGain l => exact absurd rfl (hn l)
    | _ => intro l hl; simp [layersIn] at hl
  cases hs : d.1.spec with
  | mixGain g =>
    cases x with
    | mixGain y =>
      refine ⟨_, rfl, rfl, fun m' hm index hi => ?_⟩
      obtain ⟨h1, h2⟩ := back _ m' (by intro l h; cases h) hm
      refine (subblock_iff true source d index m' h1 (by simp) _).mpr ⟨hi, ?_⟩
      unfold Says
      rw [hs]
      refine ⟨_, y, h2, rfl, ?_⟩
      cases y <;> simp [gainMetadata, SameGain]
    | _ => rw [hs] at hx; exact absurd hx (by simp [DataFor])
  | demixing g =>
    cases x with
    | demixing y =>
      have hx : y.dmixpMode.toNat < 8 := by rw [hs] at hx; exact hx
      refine ⟨⟨duration.getD 0, .demixing (y.dmixpMode.toUInt32 + 1) y.reserved.toUInt32⟩, ?_, rfl, fun m' hm index hi => ?_⟩
      · simp only [subblockMetadata, dmixpModeToProto, if_pos hx]
        rfl
      · obtain ⟨h1, h2⟩ := back _ m' (by intro l h; cases h) hm
        refine (subblock_iff true source d index m' h1 (by simp) _).mpr ⟨hi, ?_⟩
        unfold Says
        rw [hs]
        refine ⟨_, _, y, h2, rfl, ?_, hx, by simp⟩
        rw [UInt32.toNat_add, UInt8.toNat_toUInt32]
        have : (1 : UInt32).toNat = 1 := rfl
        omega
    | _ => rw [hs] at hx; exact absurd hx (by simp [DataFor])
  | reconGain flags =>
    cases x with
    | reconGain flags' es =>
      rw [hs] at hx
      obtain ⟨rfl, hf, he⟩ : flags' = flags ∧ List.Forall₂ (fun (f : Bool) (e : Option ReconGainElement) => e.isSome = f) flags es ∧
        ∀ e, some e ∈ es → TwelveGains e := hx
      refine ⟨_, rfl, rfl, ?_⟩
      rintro ⟨du, c⟩ ⟨-, hc⟩ index hi
      cases c with
      | reconGain l =>
        replace hc : List.Forall₂ List.Perm (es.map layerMetadata) l := hc
        have hlen : l.length = es.length := by rw [← hc.length_eq, List.length_map]
        have hflen := hf.length_eq
        have hget : ∀ i (h1 : i < es.length) (h2 : i < l.length), (layerMetadata es[i]).Perm l[i] := by
          intro i h1 h2
          have := hc.get (i := i) (by simpa using h1) h2
          simpa using this
        refine (subblock_iff true source d index _ ?_ (by simp) _).mpr ⟨hi, ?_⟩
        · intro k hk
          obtain ⟨i, hi, rfl⟩ := List.getElem_of_mem (show k ∈ l from hk)
          have hp := hget i (by omega) hi
          rw [← (hp.map Prod.fst).nodup_iff]
          cases hes : es[i]'(by omega) with
          | none => simp [layerMetadata]
          | some e =>
            have := he e (by rw [← hes]; exact List.getElem_mem _)
            exact (flagged_keys e.flag e.gains 0 1 (by rw [this.length]; decide)).2
        · unfold Says
          rw [hs]
          refine ⟨es.map (Option.map knownElement), rfl, by simp [hflen], fun _ => by simp only [layersIn]; omega, fun i f e hfi hei => ?_⟩
          obtain ⟨h1, rfl⟩ := List.getElem?_eq_some_iff.mp hei
          obtain ⟨h2, rfl⟩ := List.getElem?_eq_some_iff.mp hfi
          rw [List.length_map] at h1
          have hsome : (es[i]).isSome = flags'[i] := by simpa using hf.get h2 h1
          unfold SameLayer
          rw [List.getElem_map]
          cases hes : es[i] with
          | none =>
            rw [hes] at hsome
            rw [if_neg (by rw [← hsome]; simp)]
            rfl
          | some e =>
            rw [hes] at hsome
            rw [if_pos (by rw [← hsome]; rfl)]
            have hp := hget i h1 (by omega)
            rw [hes] at hp
            refine ⟨l[i]'(by omega), knownElement e, List.getElem?_eq_getElem (show i < l.length by omega), rfl,
              layer_gains e (he e (by rw [← hes]; exact List.getElem_mem _)) _ hp, fun h => by simp at h⟩
      | _ => simp at hc
    | _ => rw [hs] at hx; exact absurd hx (by simp [DataFor])
  | _ => rw [hs] at hx; exact absurd hx (by cases x <;> simp [DataFor])

/-- **C60 (nothing is lost).** If no gain is at a position above the twelfth then the data are the same. -/
theorem C60_known_positions (x : ParamData) (h : KnownPositions x) : knownData x = x := by
  cases x with
  | reconGain flags es =>
    show ParamData.reconGain flags (es.map (Option.map knownElement)) = .reconGain flags es
    congr 1
    conv => rhs; rw [← List.map_id es]
    refine List.map_congr_left fun o ho => ?_
    cases o with
    | none => rfl
    | some e =>
      have := h e ho
      simp only [Option.map_some, knownElement, id_eq, Option.some.injEq]
      rw [Nat.mod_eq_of_lt this, UInt32.ofNat_toNat]
  | _ => rfl

/-! ### Where data come from -/

private theorem sf_gains (flag : UInt32) : ∀ (n i : Nat) (mask : UInt32), mask.toNat = 2 ^ i → i + n < 32 →
    Sf (rReconGains flag n mask) (fun l => l.length = n ∧ ∀ k < n, flag.toNat.testBit (i + k) = false → l[k]? = some 0)
  | 0, _, _, _, _ => Sf.ret ⟨rfl, fun k hk => by omega⟩
  | n + 1, i, mask, hm, hl => by
    have hb := mask_bit flag mask i hm
    refine Sf.bind (Q := fun x => flag.toNat.testBit i = false → x = 0)
      (Sf.ite (fun hf => (Sf.u8 8).weaken fun x _ h => by rw [hb.mp hf] at h; cases h) (fun _ => Sf.ret fun _ => rfl)) fun x hx => ?_
    · refine (sf_gains flag n (i + 1) (mask <<< 1) (next_mask mask i (by omega) hm) (by omega)).bind fun xs h => Sf.ret ⟨by simp [h.1], ?_⟩
      intro k hk hbit
      cases k with
      | zero => simp [hx hbit]
      | succ k =>
        rw [List.getElem?_cons_succ]
        exact h.2 k (by omega) (by rw [show i + 1 + k = i + (k + 1) by omega]; exact hbit)

private theorem sf_info : ∀ fs : List Bool, Sf (rReconGainInfo fs)
    (fun l => List.Forall₂ (fun (f : Bool) (e : Option ReconGainElement) => e.isSome = f) fs l ∧ ∀ e, some e ∈ l → TwelveGains e)
  | [] => Sf.ret ⟨.nil, by simp⟩
  | false :: fs => by
    refine (sf_info fs).bind fun es h => Sf.ret ⟨.cons rfl h.1, fun e he => ?_⟩
    rcases List.mem_cons.mp he with he | he
    · cases he
    · exact h.2 e he
  | true :: fs => by
    refine Sf.bind (Q := fun _ => True) Sf.uleb.any fun flag _ => ?_
    refine (sf_gains flag 12 0 1 rfl (by decide)).bind fun gs hg => ?_
    refine (sf_info fs).bind fun es h => Sf.ret ⟨.cons rfl h.1, fun e he => ?_⟩
    rcases List.mem_cons.mp he with he | he
    · cases he
      exact ⟨hg.1, fun k hk hb => hg.2 k hk (by simpa using hb)⟩
    · exact h.2 e he

/-- **C60 (from a bitstream).** Whatever bytes the data of a mix gain, demixing or recon gain parameter are read from, there are metadata
for them. -/
theorem C60_read_data_have_metadata (s : ParamSpecific) (hs : (∃ g, s = .mixGain g) ∨ (∃ g, s = .demixing g) ∨ ∃ g, s = .reconGain g)
    (src : List UInt8) (cap : Nat) (pv : Bool) (hc : 0 < cap) (x : ParamData)
    (h : ((rParamData s).run (RBuf.create cap src pv)).1 = .ok x) : DataFor s x := by
  have href := C03_read_buffer_is_cursor (rParamData s) src cap pv (.inl hc)
  rw [href.1] at h
  have hsf : Sf (rParamData s) (fun x => DataFor s x) := by
    rcases hs with ⟨g, rfl⟩ | ⟨g, rfl⟩ | ⟨g, rfl⟩
    · exact MixGainData.sf.bind fun d _ => Sf.ret trivial
    · have : Sf DemixingInfo.read (fun d => d.dmixpMode.toNat < 8) := by
        unfold DemixingInfo.read
        exact (Sf.u8 3).bind fun m hm => (Sf.u8 5).bind fun r _ => (Sf.check rfl).bind fun _ _ => Sf.ret hm
      exact this.bind fun d hd => Sf.ret hd
    · exact (sf_info g).bind fun es he => Sf.ret ⟨rfl, he.1, he.2⟩
  have := hsf ⟨bytesBits src, 0, pv⟩
  rw [h] at this
  exact this

/-- **C60 (from metadata).** Data that the generator of parameter blocks made of metadata are of this kind, and have no gains at positions
that do not exist: so metadata to data to metadata to data gives the same data. -/
theorem C60_generated_data_have_metadata (override : Bool) (source : UInt32 → ReconSource) (d : ParamEntry) (index : Nat) (m : SubblockMetadata)
    (hk : DistinctKeys m) (hp : override = false → OnePerPlace d) (x : ParamData) (h : generateSubblock override source d index m = .ok x) :
    DataFor d.1.spec x ∧ KnownPositions x := by
  obtain ⟨-, hs⟩ := (subblock_iff override source d index m hk hp x).mp h
  unfold Says at hs
  cases hd : d.1.spec with
  | mixGain g =>
    rw [hd] at hs
    obtain ⟨_, y, -, rfl, -⟩ := hs
    exact ⟨trivial, trivial⟩
  | demixing g =>
    rw [hd] at hs
    obtain ⟨_, _, y, -, rfl, hy⟩ := hs
    exact ⟨hy.2.1, trivial⟩
  | reconGain flags =>
    rw [hd] at hs
    obtain ⟨es, rfl, hl, -, hes⟩ := hs
    have key : ∀ e, some e ∈ es → ∃ given, HasGains given e := by
      intro e he
      obtain ⟨i, hi, hei⟩ := List.getElem_of_mem he
      have h1 := hes i (flags[i]'(by omega)) (some e) (List.getElem?_eq_getElem _) (by rw [List.getElem?_eq_getElem hi, hei])
      unfold SameLayer at h1
      split at h1
      · obtain ⟨given, g, -, hg, hh, -⟩ := h1
        cases hg
        exact ⟨_, hh⟩
      · cases h1
    refine ⟨⟨rfl, ?_, fun e he => ?_⟩, fun e he => ?_⟩
    · refine List.forall₂_iff_get.mpr ⟨hl.symm, fun i h1 h2 => ?_⟩
      have h3 := hes i (flags[i]) es[i] (List.getElem?_eq_getElem h1) (List.getElem?_eq_getElem h2)
      simp only [List.get_eq_getElem]
      unfold SameLayer at h3
      split at h3
      · rename_i hf
        obtain ⟨_, g, -, hg, -⟩ := h3
        rw [hg, hf]
        rfl
      · rename_i hf
        rw [h3]
        simpa using hf
    · obtain ⟨given, hg⟩ := key e he
      refine ⟨hg.length, fun k hk hb => hg.others k hk fun p hp hpk => ?_⟩
      rw [hg.flag k, List.any_eq_false] at hb
      exact hb p hp (by simpa using hpk)
    · obtain ⟨given, hg⟩ := key e he
      refine Nat.lt_pow_two_of_testBit _ fun k hk => ?_
      rw [hg.flag k, List.any_eq_false]
      intro p hp hc
      have := hg.positions p hp
      simp only [decide_eq_true_eq] at hc
      omega
  | _ => rw [hd] at hs; exact absurd hs (by simp)

/-! ### Examples -/

private def exampleGains : ParamData := .reconGain [false, true] [none, some ⟨5, [255, 0, 128, 0, 0, 0, 0, 0, 0, 0, 0, 0]⟩]

/-- Recon gains at two positions of the second layer. -/
example : DataFor (.reconGain [false, true]) exampleGains ∧ KnownPositions exampleGains ∧
    subblockMetadata (.reconGain [false, true]) (some 64) exampleGains = .ok (⟨64, .reconGain [[], [(0, 255), (2, 128)]]⟩, none) := by
  refine ⟨⟨rfl, .cons rfl (.cons rfl .nil), ?_⟩, ?_, by decide +kernel⟩
  · intro e he
    simp only [List.mem_cons, Option.some.injEq, reduceCtorEq, List.not_mem_nil, or_false, false_or] at he
    subst he
    exact ⟨rfl, by decide +kernel⟩
  · intro e he
    simp only [List.mem_cons, Option.some.injEq, reduceCtorEq, List.not_mem_nil, or_false, false_or] at he
    subst he
    decide

/-- **C60 (finding).** Flags that a bitstream has for positions above the twelfth are not in the metadata. -/
theorem C60_unknown_positions_are_dropped :
    layerMetadata (some ⟨4096, List.replicate 12 0⟩) = [] ∧ knownElement ⟨4096, List.replicate 12 0⟩ = ⟨0, List.replicate 12 0⟩ := by
  decide +kernel

/-- **C60 (extensions).** The data of an extension are kept as bytes, with the duration; of data that are those of another definition there are no
metadata. -/
theorem C60_extension_metadata (s : ParamSpecific) (hs : ¬ ((∃ g, s = .mixGain g) ∨ (∃ g, s = .demixing g) ∨ ∃ g, s = .reconGain g))
    (duration : Option UInt32) (x : ParamData) (r : SubblockMetadata × Option (List UInt8)) :
    subblockMetadata s duration x = .ok r ↔ ∃ bytes, x = .extension bytes ∧ r = (⟨duration.getD 0, .unset⟩, some bytes) := by
  cases s <;> cases x <;> simp [subblockMetadata, eq_comm] at hs ⊢

end Iamf.Props
