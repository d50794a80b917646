import Verif.Props.Processor
import Verif.Props.SequencerExamples
/-
  C35: concrete units, and what happens to parameter blocks that are not in time.
-/
namespace Iamf.Props
open Iamf

/-- The descriptors of `exampleSequence`, as they are parsed. -/
def examplePlayable : Descriptors :=
  ⟨some (⟨31, false, false, 0, 0, none⟩, ⟨0, 0⟩), [(7, exampleCodec)],
   [(3, ⟨exampleElement, some exampleCodec, ⟨[(5, [.l2, .r2])], [], [⟨2, 0, 0, 0⟩]⟩⟩)], [exampleStereoMix]⟩

/-- A mix gain block of two ticks for the parameter 8 or 9. -/
def exampleGain (pid : UInt32) (k : Nat) (v : Int16) : BlockWithData :=
  ⟨⟨pid, some ⟨2, 2, 1, []⟩, [some (.mixGain (.step v))]⟩, (k * 2 : Nat), (k * 2 + 2 : Nat), ⟨3, false, false, 0, 0, none⟩,
   ⟨⟨pid, 48000, 0, none⟩, .mixGain 0⟩⟩

/-- An OBU of a reserved type, before the parameter blocks. -/
def exampleReserved : ArbitraryObu := ⟨⟨24, false, false, 0, 0, none⟩, [1, 2], 6, some 0, false⟩

/-- The unit `k`, with blocks for the given parameters. -/
def exampleGained (pids : List UInt32) (k : Nat) : TemporalUnitView :=
  ⟨pids.map fun i => exampleGain i k 5, [⟨⟨11, false, false, 0, 0, none⟩, ⟨5, [1, 2, 3, 4]⟩, (k * 2 : Nat), ((k + 1) * 2 : Nat), some (3, some 2)⟩],
   [exampleReserved], (k * 2 : Nat), ((k + 1) * 2 : Nat), 0, 2⟩

theorem example_consistent : ConsistentDescriptors examplePlayable := by
  constructor
  · decide
  · intro x hx
    simp only [examplePlayable, List.mem_singleton] at hx
    subst hx
    exact ⟨rfl, by decide +kernel⟩
  · decide
  · intro x hx
    simp only [examplePlayable, List.mem_singleton] at hx
    subst hx
    exact ⟨rfl, by decide, exampleCodec, by simp [examplePlayable, exampleElement], rfl⟩
  · intro m hm s hs e he
    simp only [examplePlayable, List.mem_singleton] at hm
    subst hm
    simp only [exampleStereoMix, List.mem_singleton] at hs
    subst hs
    simp only [List.mem_singleton] at he
    subst he
    simp [examplePlayable]

theorem example_playable : Playable examplePlayable 2 := by
  constructor
  · decide
  · intro x hx c hc
    simp only [examplePlayable, List.mem_singleton] at hx
    subst hx
    simp only [Option.some.injEq] at hc
    subst hc
    rfl
  · intro x hx s hs
    simp only [examplePlayable, List.mem_singleton] at hx
    subst hx
    simpa [exampleElement] using hs
  · intro x hx
    simp only [examplePlayable, List.mem_singleton] at hx
    subst hx
    refine ⟨by decide, fun c hc => ?_⟩
    simp only [exampleElement, ElementConfig.scalable.injEq] at hc
    subst hc
    decide
  · intro x hx b d h
    simp only [examplePlayable, List.mem_singleton] at hx
    subst hx
    simp [demixingDefinition, exampleElement] at h

theorem example_unit (pids : List UInt32) (hp : ∀ p ∈ pids, p = 8 ∨ p = 9) (hn : pids.Nodup) (k : Nat) :
    UnitOf examplePlayable 2 k (exampleGained pids k) := by
  constructor
  · exact List.Perm.refl _
  · intro f hf
    simp only [exampleGained, List.mem_singleton] at hf
    subst hf
    exact ⟨show (11 : UInt8) = if (5 : UInt32).toNat > 17 then 5 else UInt8.ofNat (6 + (5 : UInt32).toNat) by decide, .inr ⟨rfl, rfl⟩,
      ⟨rfl, rfl⟩, _, List.mem_singleton.mpr rfl, by simp [exampleElement], rfl⟩
  · simpa [exampleGained, exampleGain, Function.comp_def] using hn
  · intro b hb
    simp only [exampleGained, List.mem_map] at hb
    obtain ⟨p, hpm, rfl⟩ := hb
    refine ⟨rfl, ⟨rfl, rfl⟩, ⟨rfl, rfl⟩, ?_, [.mixGain (.step 5)], rfl, rfl, ?_, _, rfl, .inl ⟨2, 2, by decide +kernel⟩⟩
    · rcases hp p hpm with rfl | rfl <;>
        simp [definitions, examplePlayable, exampleStereoMix, exampleGain, exampleElement]
    · intro d hd
      simp only [List.mem_singleton] at hd
      subst hd
      trivial
  · intro o ho
    simp only [exampleGained, List.mem_singleton] at ho
    subst ho
    exact .inl (by decide)

/-- Processing of bytes after `examplePlayable`. -/
def exampleProcessed (bytes : List UInt8) : Option (List OutputUnit) :=
  match initProcessor examplePlayable with
  | .ok (c, st) => processedUnits c (bytes.length + 1) st (RBuf.create 3 bytes true)
  | .error _ => none

/-- Not vacuous: units of `example_unit`, with blocks for both parameters. -/
example : ∃ c st, initProcessor examplePlayable = .ok (c, st) := ⟨_, _, rfl⟩
example : Gapless 2 [exampleGained [8, 9] 0, exampleGained [8, 9] 1] := by
  intro u hu
  simp only [List.mem_cons, List.not_mem_nil, or_false] at hu
  refine ⟨fun b hb => ?_, fun v hv b hb => ?_⟩
  · rcases hu with rfl | rfl <;> simp only [exampleGained, List.map_cons, List.map_nil, List.mem_cons, List.not_mem_nil, or_false] at hb <;>
      rcases hb with rfl | rfl <;> rfl
  · simp only [List.mem_cons, List.not_mem_nil, or_false] at hv
    rcases hv with rfl | rfl <;> simp only [exampleGained, List.map_cons, List.map_nil, List.mem_cons, List.not_mem_nil, or_false] at hb <;>
      rcases hb with rfl | rfl <;> rcases hu with rfl | rfl <;> simp [exampleGained, exampleGain]

private theorem writes_of {g : LebGen} {l : List (Wr Unit)} (parts : List (List UInt8))
    (h : l.map (Wr.eval g) = parts.map fun b => (.ok (), bytesBits b)) : List.Forall₂ (Writes g) l parts := by
  induction l generalizing parts with
  | nil => cases parts with
    | nil => exact .nil
    | cons b p => simp at h
  | cons a l ih =>
    cases parts with
    | nil => simp at h
    | cons b p =>
      simp only [List.map_cons, List.cons.injEq] at h
      exact .cons (Writes.of_eval h.1) (ih p h.2)

example (k : Nat) : UnitBytes .minimum true (exampleGained [8, 9] k)
    [32, 0, 192, 2, 1, 2, 24, 6, 8, 2, 2, 0, 0, 5, 24, 6, 9, 2, 2, 0, 0, 5, 88, 4, 1, 2, 3, 4] :=
  ⟨[[32, 0], [192, 2, 1, 2], [24, 6, 8, 2, 2, 0, 0, 5], [24, 6, 9, 2, 2, 0, 0, 5], [88, 4, 1, 2, 3, 4]], rfl,
    writes_of _ (by
      show _ = _
      have : (unitObus true (exampleGained [8, 9] k)) = unitObus true (exampleGained [8, 9] 0) := rfl
      rw [this]
      decide +kernel)⟩

/-- The same, computed. -/
example : exampleProcessed [32, 0, 192, 2, 1, 2, 24, 6, 8, 2, 2, 0, 0, 5, 24, 6, 9, 2, 2, 0, 0, 5, 88, 4, 1, 2, 3, 4,
    32, 0, 192, 2, 1, 2, 24, 6, 8, 2, 2, 0, 0, 5, 24, 6, 9, 2, 2, 0, 0, 5, 88, 4, 1, 2, 3, 4] =
    some (unitsBack examplePlayable 2 0 [] [exampleGained [8, 9] 0, exampleGained [8, 9] 1]) := by decide +kernel

/-- **C35 (finding).** A parameter block is dropped, without an error, if its parameter has no blocks from the beginning: the blocks of
a parameter are numbered from the beginning of the sequence, whatever the temporal unit that they are in. -/
theorem C35_late_parameter_is_dropped :
    (∀ k, UnitOf examplePlayable 2 k (exampleGained [] k)) ∧ (∀ k, UnitOf examplePlayable 2 k (exampleGained [8] k)) ∧
    exampleProcessed [192, 2, 1, 2, 88, 4, 1, 2, 3, 4, 192, 2, 1, 2, 24, 6, 8, 2, 2, 0, 0, 5, 88, 4, 1, 2, 3, 4] =
      some ([exampleGained [] 0, exampleGained [] 1].mapIdx fun k u => ⟨u.frames.map (frameBack examplePlayable), [], (k * 2 : Nat)⟩) :=
  ⟨example_unit [] (by simp) (by simp), example_unit [8] (by simp) (by simp), by decide +kernel⟩

end Iamf.Props
