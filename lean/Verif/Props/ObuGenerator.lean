import Verif.Cli.ObuGenerator
import Verif.Props.MixGenerator
import Verif.Props.ObuSimple
import Verif.Props.Wire

/-!
# C64: the remaining OBUs that user metadata describe

Arbitrary OBUs, metadata OBUs, and the way in which numbers are written.
-/

namespace Iamf.Props
open Iamf

/-- Where an arbitrary OBU goes: the hook, counted from one in the metadata and from zero in an OBU; the last three take a tick. -/
structure SaysHook (m : ArbitraryObuMetadata) (o : ArbitraryObu) : Prop where
  hook : o.insertionHook + 1 = m.insertionHook.toNat ∧ o.insertionHook ≤ 8
  tick : o.insertionTick = if 6 ≤ o.insertionHook then some m.insertionTick.toInt else none

/-- The arbitrary OBU is the one that the metadata describe: type (counted from one in the metadata), header, payload, place. -/
structure SaysArbitrary (m : ArbitraryObuMetadata) (o : ArbitraryObu) : Prop where
  type : o.header.obuType.toNat + 1 = m.obuType.toNat ∧ o.header.obuType.toNat ≤ 31
  header : SaysHeader o.header.obuType m.header o.header
  payload : o.payload = m.payload
  place : SaysHook m o
  invalidates : o.invalidatesBitstream = m.invalidatesBitstream

private theorem bind_ok {α β : Type} (x : Except Err α) (f : α → Except Err β) (b : β) :
    (x >>= f) = .ok b ↔ ∃ a, x = .ok a ∧ f a = .ok b := by
  cases x with
  | error e => exact ⟨fun h => by simp [bind, Except.bind] at h, fun ⟨a, h, _⟩ => by simp at h⟩
  | ok a => exact ⟨fun h => ⟨a, rfl, h⟩, fun ⟨a', h, h'⟩ => by cases h; exact h'⟩

private theorem all_ok {α β : Type} (f : α → Except Err β) (R : α → β → Prop) (hR : ∀ x y, f x = .ok y ↔ R x y) :
    ∀ (xs : List α) (ys : List β), castAll f xs = .ok ys ↔ List.Forall₂ R xs ys := by
  intro xs
  induction xs with
  | nil =>
    intro ys
    simp only [castAll, Except.ok.injEq, List.forall₂_nil_left_iff]
    exact eq_comm
  | cons x xs ih =>
    intro ys
    simp only [castAll, bind_ok, hR, ih, Except.ok.injEq, List.forall₂_cons_left_iff]
    constructor
    · rintro ⟨y, h1, ys', h2, rfl⟩; exact ⟨y, ys', h1, h2, rfl⟩
    · rintro ⟨y, ys', h1, h2, rfl⟩; exact ⟨y, h1, ys', h2, rfl⟩

private theorem type_ok (m : UInt32) (t : ObuType) : obuTypeFromProto m = .ok t ↔ t.toNat + 1 = m.toNat ∧ t.toNat ≤ 31 := by
  have e : (1 ≤ m ∧ m ≤ 32) ↔ 1 ≤ m.toNat ∧ m.toNat ≤ 32 := by simp only [UInt32.le_iff_toNat_le]; exact Iff.rfl
  unfold obuTypeFromProto
  simp only [e]
  have hs : 1 ≤ m.toNat → (m - 1).toUInt8.toNat = (m.toNat - 1) % 256 := by
    intro h
    rw [UInt32.toNat_toUInt8, UInt32.toNat_sub_of_le m 1 (UInt32.le_iff_toNat_le.mpr h)]
    rfl
  split
  next h =>
    have hs := hs h.1
    constructor
    · intro x; cases x; omega
    · intro x
      congr 1
      apply UInt8.toNat_inj.mp
      omega
  next h =>
    constructor
    · intro x; cases x
    · intro x; exact absurd ⟨by omega, by omega⟩ h

private theorem hook_ok (hook : UInt32) (tick : Int64) (r : Nat × Option Int) : hookFromProto hook tick = .ok r ↔
    (r.1 + 1 = hook.toNat ∧ r.1 ≤ 8) ∧ r.2 = if 6 ≤ r.1 then some tick.toInt else none := by
  obtain ⟨a, b⟩ := r
  have e : ∀ n : UInt32, hook = n ↔ hook.toNat = n.toNat := fun n => UInt32.toNat_inj.symm
  unfold hookFromProto
  simp only [e, show (1 : UInt32).toNat = 1 from rfl, show (2 : UInt32).toNat = 2 from rfl, show (3 : UInt32).toNat = 3 from rfl,
    show (4 : UInt32).toNat = 4 from rfl, show (5 : UInt32).toNat = 5 from rfl, show (6 : UInt32).toNat = 6 from rfl,
    show (7 : UInt32).toNat = 7 from rfl, show (8 : UInt32).toNat = 8 from rfl, show (9 : UInt32).toNat = 9 from rfl]
  generalize hook.toNat = n
  constructor
  · intro h
    split_ifs at h <;> cases h <;> subst_vars <;> refine ⟨by omega, by simp⟩
  · rintro ⟨⟨h1, h2⟩, h3⟩
    subst h1
    rw [h3]
    clear h3
    have : a = 0 ∨ a = 1 ∨ a = 2 ∨ a = 3 ∨ a = 4 ∨ a = 5 ∨ a = 6 ∨ a = 7 ∨ a = 8 := by omega
    rcases this with rfl | rfl | rfl | rfl | rfl | rfl | rfl | rfl | rfl <;> rfl

/-- **C64 (arbitrary OBUs).** The generator accepts arbitrary OBUs exactly if their types and hooks exist, and makes of each the OBU that the
metadata describe. -/
theorem C64_arbitrary_obu (m : ArbitraryObuMetadata) (o : ArbitraryObu) : generateArbitraryObu m = .ok o ↔ SaysArbitrary m o := by
  unfold generateArbitraryObu
  simp only [bind_ok, type_ok, Except.ok.injEq]
  constructor
  · rintro ⟨t, ht, r, hr, rfl⟩
    have hh := (hook_ok _ _ r).mp hr
    have hs := (metadata_header t m.header _).mp rfl
    exact ⟨ht, hs, rfl, ⟨hh.1, hh.2⟩, rfl⟩
  · intro h
    obtain ⟨header, payload, hook, tick, inv⟩ := o
    refine ⟨header.obuType, h.type, (hook, tick), (hook_ok _ _ _).mpr ⟨h.place.hook, h.place.tick⟩, ?_⟩
    have e1 := (metadata_header _ _ _).mpr h.header
    have e2 := h.payload
    have e3 := h.invalidates
    simp only at e1 e2 e3
    rw [e2, e3, ArbitraryObu.mk.injEq]
    exact ⟨e1.symm, rfl, rfl, rfl, rfl⟩

/-- **C64.** All of them, in order. -/
theorem C64_arbitrary_obus (ms : List ArbitraryObuMetadata) (os : List ArbitraryObu) :
    generateArbitraryObus ms = .ok os ↔ List.Forall₂ SaysArbitrary ms os := all_ok _ _ C64_arbitrary_obu ms os

/-- What metadata OBUs carry.  Country code and extension byte are narrowed to a byte. -/
def SaysMetadata (m : MetadataObuMetadata) (o : Metadata) : Prop := match m, o with
  | .ituT35 cc ext payload, .ituT35 cc' ext' payload' => cc'.toNat = cc.toNat % 256 ∧ payload' = payload ∧
      ∀ b, ext' = some b ↔ cc.toNat = 255 ∧ ∃ x, ext = some x ∧ b.toNat = x.toNat % 256
  | .tags tags, .iamfTags tags' => tags' = tags
  | _, _ => False

private theorem itu_ok (cc : UInt32) (ext : Option UInt32) (payload : List UInt8) (o : Metadata) :
    ituT35FromMetadata cc ext payload = o ↔ SaysMetadata (.ituT35 cc ext payload) o := by
  unfold ituT35FromMetadata
  cases o with
  | iamfTags t => simp [SaysMetadata]
  | unknown t => simp [SaysMetadata]
  | ituT35 cc' ext' payload' =>
    rw [Metadata.ituT35.injEq]
    show _ ↔ (_ ∧ _ ∧ ∀ b, _ ↔ _ ∧ ∃ x, _ ∧ _)
    have h1 : cc.toUInt8 = cc' ↔ cc'.toNat = cc.toNat % 256 := by
      rw [← UInt8.toNat_inj, UInt32.toNat_toUInt8]; exact eq_comm
    have h2 : cc = 255 ↔ cc.toNat = 255 := UInt32.toNat_inj.symm
    have h3 : ∀ (x : UInt32) (b : UInt8), b.toNat = x.toNat % 256 ↔ x.toUInt8 = b := fun x b => by
      rw [← UInt8.toNat_inj, UInt32.toNat_toUInt8]; exact eq_comm
    simp only [h1, h2]
    constructor
    · rintro ⟨a, rfl, rfl⟩
      refine ⟨a, rfl, fun b => ?_⟩
      split
      next h => cases ext <;> simp [h, h3]
      next h => simp [h]
    · rintro ⟨a, rfl, h⟩
      refine ⟨a, Option.ext fun b => ?_, rfl⟩
      rw [h b]
      split
      next hc => cases ext <;> simp [hc, h3]
      next h => simp [h]

/-- **C64 (metadata OBUs).** The generator accepts every message, but not metadata without one, and makes the OBU that it describes, with a header
that has no flags and no extension. -/
theorem C64_metadata_obu (m : MetadataObuMetadata) (o : Obu Metadata) : generateMetadataObu m = .ok o ↔
    SaysMetadata m o.body ∧ o.header = ⟨24, false, false, 0, 0, none⟩ ∧ o.footer = [] := by
  obtain ⟨header, body, footer⟩ := o
  cases m with
  | unset => simp [generateMetadataObu, SaysMetadata]
  | ituT35 cc ext payload =>
    simp only [generateMetadataObu, Except.ok.injEq, Obu.mk.injEq, itu_ok]
    constructor
    · rintro ⟨rfl, h, rfl⟩; exact ⟨h, rfl, rfl⟩
    · rintro ⟨h, rfl, rfl⟩; exact ⟨rfl, h, rfl⟩
  | tags tags =>
    simp only [generateMetadataObu, Except.ok.injEq, Obu.mk.injEq]
    constructor
    · rintro ⟨rfl, rfl, rfl⟩; exact ⟨rfl, rfl, rfl⟩
    · rintro ⟨h, rfl, rfl⟩
      cases body with
      | iamfTags t => exact ⟨rfl, congrArg _ h.symm, rfl⟩
      | ituT35 a b c => exact h.elim
      | unknown t => exact h.elim

/-- **C64.** All of them, in order. -/
theorem C64_metadata_obus (ms : List MetadataObuMetadata) (os : List (Obu Metadata)) : generateMetadataObus ms = .ok os ↔
    List.Forall₂ (fun m o => SaysMetadata m o.body ∧ o.header = ⟨24, false, false, 0, 0, none⟩ ∧ o.footer = []) ms os :=
  all_ok _ _ C64_metadata_obu ms os

/-- **C64 (reading back).** A metadata OBU that was made from metadata (fewer than 2^32 tags) and that can be written is read back unchanged: the
reader gets the message that the user gave. -/
theorem C64_written_metadata_is_read (g : LebGen) (m : MetadataObuMetadata) (o : Obu Metadata) (h : generateMetadataObu m = .ok o)
    (hl : ∀ tags, m = .tags tags → tags.length < 2 ^ 32) (bytes : List UInt8) (hw : Writes g (wObu o.header o.body.write o.footer) bytes) :
    ReadsBack (rObu fun _ => Metadata.read) bytes (o.header, o.body, o.footer) ∧ SaysMetadata m o.body := by
  obtain ⟨h1, h2, h3⟩ := (C64_metadata_obu m o).mp h
  refine ⟨C13_metadata_round_trip g o.header o.body o.footer bytes (by rw [h2]) (by rw [h2]) ?_ ?_ ?_ hw, h1⟩
  · intro tags ht
    rw [ht] at h1
    cases m with
    | tags t => exact (show tags = t from h1) ▸ hl t rfl
    | unset => exact h1.elim
    | ituT35 a b c => exact h1.elim
  · intro t ht
    rw [ht] at h1
    cases m <;> exact h1.elim
  · intro cc e p ht
    rw [ht] at h1
    refine ⟨h3, fun hcc => ?_⟩
    cases m with
    | tags t => exact h1.elim
    | unset => exact h1.elim
    | ituT35 a b c =>
      obtain ⟨h4, -, h5⟩ := h1
      cases e with
      | none => rfl
      | some x =>
        exact absurd (UInt8.toNat_inj.mp (show cc.toNat = (0xff : UInt8).toNat by rw [h4, ((h5 x).mp rfl).1]; rfl)) hcc

/-- **C64 (finding).** A country code above 255 is not rejected: 256 more make the same OBU, if there is no extension byte.  511 becomes the code
`0xff` without its extension byte, which the writer refuses. -/
theorem C64_country_codes_are_narrowed (g : LebGen) (payload : List UInt8) (cc : UInt32) (hc : cc.toNat < 255) (ext : Option UInt32) :
    generateMetadataObu (.ituT35 (cc + 256) ext payload) = generateMetadataObu (.ituT35 cc none payload) ∧
    (∃ o, generateMetadataObu (.ituT35 511 ext payload) = .ok o ∧ ∀ bytes, ¬ Writes g (wObu o.header o.body.write o.footer) bytes) := by
  have h1 : (cc + 256).toNat = cc.toNat + 256 := by
    rw [UInt32.toNat_add, Nat.mod_eq_of_lt (by have : (256 : UInt32).toNat = 256 := rfl; omega)]; rfl
  have h2 : cc ≠ 255 := fun h => by rw [h] at hc; exact absurd hc (by decide)
  have h3 : cc + 256 ≠ 255 := fun h => by
    have := congrArg UInt32.toNat h
    rw [h1] at this
    have : cc.toNat + 256 = 255 := this
    omega
  have h4 : (cc + 256).toUInt8 = cc.toUInt8 := by
    apply UInt8.toNat_inj.mp
    rw [UInt32.toNat_toUInt8, UInt32.toNat_toUInt8, h1]; omega
  refine ⟨by simp [generateMetadataObu, ituT35FromMetadata, h2, h3, h4], _, rfl, ?_⟩
  intro bytes hw
  have := ((C30_metadata g ⟨24, false, false, 0, 0, none⟩ _ [] bytes (fun tags ht => by cases ht)).mp hw).1
  simp [MetadataOk, ituT35FromMetadata] at this

/-- How numbers are written: with as few bytes as possible, or always with the same number, which must be 1 to 8. -/
theorem C64_leb_generator (m : LebMetadata) (g : LebGen) : lebFromMetadata m = some g ↔
    m.mode.toNat = 1 ∧ g = .minimum ∨
    m.mode.toNat = 2 ∧ 1 ≤ m.fixedSize.toInt ∧ m.fixedSize.toInt ≤ 8 ∧ ∃ n, g = .fixed n ∧ n.toInt = m.fixedSize.toInt := by
  have e : ∀ n : UInt32, m.mode = n ↔ m.mode.toNat = n.toNat := fun n => UInt32.toNat_inj.symm
  have e8 : (kMaxLeb128Size : Int) = 8 := rfl
  unfold lebFromMetadata LebGen.create
  simp only [e, e8, show (1 : UInt32).toNat = 1 from rfl, show (2 : UInt32).toNat = 2 from rfl]
  have hc : -128 ≤ m.fixedSize.toInt → m.fixedSize.toInt ≤ 127 → m.fixedSize.toInt8.toInt = m.fixedSize.toInt := by
    intro h1 h2
    rw [Int32.toInt_toInt8]
    norm_num [Int.bmod_def]; split <;> omega
  split
  next h => rw [h]; simp [eq_comm]
  next h =>
    split
    next h2 =>
      rw [h2]
      split
      next h3 =>
        have hc := hc h3.1 h3.2
        rw [hc]
        split
        next h4 =>
          constructor
          · intro x; cases x; exact Or.inr ⟨rfl, h4.1, h4.2, _, rfl, hc⟩
          · rintro (⟨x, -⟩ | ⟨-, -, -, n, rfl, hn⟩)
            · cases x
            · rw [Option.some.injEq, LebGen.fixed.injEq]
              exact Int8.toInt_inj.mp (by rw [hc, hn])
        next h4 =>
          constructor
          · intro x; cases x
          · rintro (⟨x, -⟩ | ⟨-, h5, h6, -⟩)
            · cases x
            · exact absurd ⟨h5, h6⟩ h4
      next h3 =>
        constructor
        · intro x; cases x
        · rintro (⟨x, -⟩ | ⟨-, h5, h6, -⟩)
          · cases x
          · exact absurd ⟨by omega, by omega⟩ h3
    next h2 =>
      constructor
      · intro x; cases x
      · rintro (⟨x, -⟩ | ⟨x, -⟩)
        · exact absurd x h
        · exact absurd x h2

/-- **C64 (example).** A reserved OBU after the audio frames of tick 1024, and a codec config OBU before the descriptors; and two metadata OBUs. -/
theorem C64_example :
    generateArbitraryObus [⟨9, 27, ⟨true, false, false, 0, 0, []⟩, [1, 2], false, 1024⟩, ⟨1, 1, ⟨false, false, true, 0, 0, [7]⟩, [], true, 1024⟩] =
      .ok [⟨⟨26, true, false, 0, 0, none⟩, [1, 2], 8, some 1024, false⟩, ⟨⟨0, false, false, 0, 0, some [7]⟩, [], 0, none, true⟩] ∧
    generateArbitraryObu ⟨10, 27, ⟨true, false, false, 0, 0, []⟩, [], false, 0⟩ = .error .invalidArgument ∧
    generateArbitraryObu ⟨9, 33, ⟨true, false, false, 0, 0, []⟩, [], false, 0⟩ = .error .notFound ∧
    generateMetadataObus [.ituT35 255 (some 3) [9, 8], .tags [([65], [66])]] =
      .ok [⟨⟨24, false, false, 0, 0, none⟩, .ituT35 255 (some 3) [9, 8], []⟩, ⟨⟨24, false, false, 0, 0, none⟩, .iamfTags [([65], [66])], []⟩] := by
  decide +kernel

end Iamf.Props
