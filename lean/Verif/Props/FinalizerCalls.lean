import Verif.Props.Finalizer
import Verif.Props.PipelineExamples
/-
  C54: the order of the calls of the finalizer, and examples.
-/
namespace Iamf.Props
open Iamf

variable {Q : Meters} {S : PostProcessors}

/-- A call with its result. -/
inductive FinalizerEvent where
  | push (u : UnitToRender) (r : Except Err Unit)
  | finish (r : Except Err Unit)
  | get (validate : Bool) (r : Except Err (List (Obu MixPresentation)))

/-- Calls in any order. -/
inductive FinalizerRun (M : GainMath Rat) : Finalizer Q S → List FinalizerEvent → Finalizer Q S → Prop
  | nil {f : Finalizer Q S} : FinalizerRun M f [] f
  | push {f g h : Finalizer Q S} {es : List FinalizerEvent} {u : UnitToRender} {r : Except Err Unit} :
      FinalizerRun M f es g → g.push M u = (r, h) → FinalizerRun M f (es ++ [.push u r]) h
  | finish {f g h : Finalizer Q S} {es : List FinalizerEvent} {r : Except Err Unit} :
      FinalizerRun M f es g → g.finish = (r, h) → FinalizerRun M f (es ++ [.finish r]) h
  | get {f g h : Finalizer Q S} {es : List FinalizerEvent} {v : Bool} {r : Except Err (List (Obu MixPresentation))} :
      FinalizerRun M f es g → g.get v = (r, h) → FinalizerRun M f (es ++ [.get v r]) h

/-- The end has been announced. -/
def EndAnnounced (es : List FinalizerEvent) : Prop := ∃ r, FinalizerEvent.finish r ∈ es

/-- The final mix presentations have been returned. -/
def MixesReturned (es : List FinalizerEvent) : Prop := ∃ v ms, FinalizerEvent.get v (.ok ms) ∈ es

private theorem announced_push {es : List FinalizerEvent} {u : UnitToRender} {r : Except Err Unit} :
    EndAnnounced (es ++ [.push u r]) ↔ EndAnnounced es := by simp [EndAnnounced]
private theorem announced_get {es : List FinalizerEvent} {v : Bool} {r : Except Err (List (Obu MixPresentation))} :
    EndAnnounced (es ++ [.get v r]) ↔ EndAnnounced es := by simp [EndAnnounced]
private theorem announced_finish {es : List FinalizerEvent} {r : Except Err Unit} : EndAnnounced (es ++ [.finish r]) := ⟨r, by simp⟩
private theorem returned_push {es : List FinalizerEvent} {u : UnitToRender} {r : Except Err Unit} :
    MixesReturned (es ++ [.push u r]) ↔ MixesReturned es := by simp [MixesReturned]
private theorem returned_finish {es : List FinalizerEvent} {r : Except Err Unit} :
    MixesReturned (es ++ [.finish r]) ↔ MixesReturned es := by simp [MixesReturned]

/-- The phase says what has happened. -/
private def PhaseOf (es : List FinalizerEvent) : FinalizerPhase → Prop
  | .accepting => ¬ EndAnnounced es ∧ ¬ MixesReturned es
  | .finished => EndAnnounced es ∧ ¬ MixesReturned es
  | .flushed => EndAnnounced es ∧ MixesReturned es

private theorem run_phase {M : GainMath Rat} {f g : Finalizer Q S} {es : List FinalizerEvent} (hf : f.phase = .accepting)
    (h : FinalizerRun M f es g) : PhaseOf es g.phase := by
  induction h with
  | nil => rw [hf]; exact ⟨by simp [EndAnnounced], by simp [MixesReturned]⟩
  | @push g h es u r _ hp ih =>
    have hph : h.phase = g.phase := by
      unfold Finalizer.push at hp
      split at hp
      · cases hp; rfl
      · split at hp <;> cases hp <;> rfl
    rw [hph]
    revert ih
    cases g.phase <;> simp only [PhaseOf, announced_push, returned_push] <;> exact id
  | @finish g h es r _ hp ih =>
    unfold Finalizer.finish at hp
    cases hg : g.phase with
    | accepting =>
      rw [hg] at hp ih
      cases hp
      exact ⟨announced_finish, by rw [returned_finish]; exact ih.2⟩
    | finished =>
      rw [hg] at hp ih
      cases hp
      rw [hg]
      exact ⟨announced_finish, by rw [returned_finish]; exact ih.2⟩
    | flushed =>
      rw [hg] at hp ih
      cases hp
      rw [hg]
      exact ⟨announced_finish, by rw [returned_finish]; exact ih.2⟩
  | @get g h es v r _ hp ih =>
    unfold Finalizer.get at hp
    cases hg : g.phase with
    | accepting =>
      rw [hg] at hp ih
      cases hp
      rw [hg]
      refine ⟨by rw [announced_get]; exact ih.1, ?_⟩
      rintro ⟨v', ms, hm⟩
      simp only [List.mem_append, List.mem_singleton, FinalizerEvent.get.injEq, reduceCtorEq, and_false, or_false] at hm
      exact ih.2 ⟨v', ms, hm⟩
    | flushed =>
      rw [hg] at hp ih
      cases hp
      rw [hg]
      obtain ⟨a, v', ms, hm⟩ := ih
      exact ⟨by rw [announced_get]; exact a, v', ms, List.mem_append_left _ hm⟩
    | finished =>
      rw [hg] at hp ih
      simp only at hp
      match hm : fillMixes v g.obus g.mixes with
      | (.error e, m, os) =>
        rw [hm] at hp
        cases hp
        refine ⟨by rw [announced_get]; exact ih.1, ?_⟩
        rintro ⟨v', ms, hm⟩
        simp only [List.mem_append, List.mem_singleton, FinalizerEvent.get.injEq, reduceCtorEq, and_false, or_false] at hm
        exact ih.2 ⟨v', ms, hm⟩
      | (.ok (), m, os) =>
        rw [hm] at hp
        cases hp
        exact ⟨by rw [announced_get]; exact ih.1, v, os, by simp⟩

/-- **C54.** In any history, temporal units are not taken once the end has been announced, which can be done only once; the final mix presentations
can be had only after that, and only once.  A call that is refused has no effect. -/
theorem C54_order_of_calls {E : RenderEnv} {t : TrimmingSettings} {M : GainMath Rat} {elements : List (UInt32 × ElementWithData)}
    {obus : List (Obu MixPresentation)} {f g : Finalizer Q S} (h : NewFinalizer E t elements obus f) {es : List FinalizerEvent}
    (hr : FinalizerRun M f es g) :
    (EndAnnounced es → (∀ u, g.push M u = (.error .failedPrecondition, g)) ∧ g.finish = (.error .failedPrecondition, g)) ∧
    (¬ EndAnnounced es ∨ MixesReturned es → ∀ v, g.get v = (.error .failedPrecondition, g)) ∧
    (¬ EndAnnounced es → ∀ r g', g.finish = (r, g') → ∀ u, g'.push M u = (.error .failedPrecondition, g')) := by
  have hf : f.phase = .accepting := by
    obtain ⟨shuffle, -, hc⟩ := h.created
    change (createMeasuredMixes E t Q S elements obus [] >>= fun m => Except.ok (⟨shuffle m, obus, .accepting⟩ : Finalizer Q S)) = .ok f at hc
    cases hm : createMeasuredMixes E t Q S elements obus [] with
    | error e => rw [hm] at hc; cases hc
    | ok m => rw [hm] at hc; cases hc; rfl
  have key : ∀ {g : Finalizer Q S} {es : List FinalizerEvent}, FinalizerRun M f es g → EndAnnounced es →
      (∀ u, g.push M u = (.error .failedPrecondition, g)) ∧ g.finish = (.error .failedPrecondition, g) := by
    intro g es hr he
    have hp := run_phase hf hr
    unfold Finalizer.push Finalizer.finish
    cases hg : g.phase with
    | accepting => rw [hg] at hp; exact absurd he hp.1
    | finished => exact ⟨fun u => if_pos (by simp), rfl⟩
    | flushed => exact ⟨fun u => if_pos (by simp), rfl⟩
  refine ⟨key hr, fun hc v => ?_, fun _ r g' hg u => (key (.finish hr hg) announced_finish).1 u⟩
  have hp := run_phase hf hr
  unfold Finalizer.get
  cases hg : g.phase with
  | accepting => rfl
  | flushed => rfl
  | finished =>
    rw [hg] at hp
    rcases hc with hc | hc
    · exact absurd hp.1 hc
    · exact absurd hc hp.2

private theorem fillMixes_nil (v : Bool) : ∀ os : List (Obu MixPresentation),
    fillMixes v os ([] : List (UInt32 × List (List (MeasuredLayout Q S)))) = (.ok (), [], os) := by
  intro os
  induction os with
  | nil => rfl
  | cons o os ih =>
    unfold fillMixes
    simp only [List.lookup, ih]

/-- **C54.** Without renderers nothing is measured: units whose blocks have their time are taken, and the mix presentations stay as they are. -/
theorem C54_without_rendering {t : TrimmingSettings} {M : GainMath Rat} {shuffle : List (UInt32 × List (List (MeasuredLayout Q S))) →
    List (UInt32 × List (List (MeasuredLayout Q S)))} (elements : List (UInt32 × ElementWithData)) (obus : List (Obu MixPresentation)) :
    ∃ f, Finalizer.create none t Q S shuffle elements obus = .ok f ∧
      (∀ u : UnitToRender, (∀ b ∈ u.blocks, b.start = u.start ∧ b.stop = u.stop) → f.push M u = (.ok (), f)) ∧
      ∃ g, f.finish = (.ok (), g) ∧ ∀ v, (g.get v).1 = .ok obus := by
  refine ⟨⟨[], obus, .accepting⟩, rfl, fun u hu => ?_, ⟨[], obus, .finished⟩, rfl, fun v => ?_⟩
  · unfold Finalizer.push
    rw [if_neg (by simp), if_neg]
    · rfl
    · simp only [List.any_eq_true, not_exists, not_and, decide_eq_true_eq, not_or, Decidable.not_not]
      exact hu
  · unfold Finalizer.get
    simp only [fillMixes_nil]

/-! ### Examples -/

/-- A measurement that adds up all samples (in 1/32768, as integrated loudness), with the number of frames as digital peak. -/
def exampleMeters : Meters where
  State := Rat × Int
  create _ _ _ := some (0, 0)
  accumulate q s := (.ok (), (q.1 + (s.map List.sum).sum, q.2 + 1))
  query q := .ok ⟨0, Int16.ofInt (q.1 * 32768).floor, Int16.ofInt q.2, 0, [], []⟩

/-- Without post-processing. -/
def noPostProcessors : PostProcessors := ⟨Unit, fun _ _ _ _ _ _ _ _ => none, fun q _ => (.ok (), q), fun q => (.ok (), q), fun _ => []⟩

def exampleMeasured : Except Err (Finalizer exampleMeters noPostProcessors) :=
  Finalizer.create (some exampleEnv) ⟨true, true⟩ exampleMeters noPostProcessors id examplePlayable.elements exampleSequence.mixes

/-- Temporal unit of two samples in two channels, of which one is trimmed at the end if `trim` is 1. -/
def exampleUnitToRender (k : Int) (trim : UInt32) (l r : List Rat) : UnitToRender where
  frames := fun id => if id = 3 then some ⟨fun c => if c = .l2 then some l else if c = .r2 then some r else none, 0, trim, ⟨0, 0, 0, 0, 0, 0, 0, false⟩⟩ else none
  start := k * 2
  stop := k * 2 + 2
  blocks := []

/-- The loudness of all layouts. -/
def loudnessOf (ms : List (Obu MixPresentation)) : List (Int16 × Int16) :=
  (ms.map fun o => o.body.subMixes.map fun s => s.layouts.map fun l => (l.loudness.integratedLoudness, l.loudness.digitalPeak)).flatten.flatten

/-- Push units, finish, and get the mix presentations once or twice. -/
def exampleMeasurement (us : List UnitToRender) (validate : Bool) : Option (Bool × List (Int16 × Int16) × List (Int16 × Int16)) :=
  match exampleMeasured with
  | .error _ => none
  | .ok f =>
    let f := us.foldl (fun f u => (f.push exampleDecibels u).2) f
    let f := f.finish.2
    some (match f.get validate, (f.get validate).2.get validate with
    | (.ok ms, _), _ => (true, loudnessOf ms, [])
    | (.error _, _), (.ok ms, _) => (false, [], loudnessOf ms)
    | _, _ => (false, [], []))

/-- The units of the examples: the last sample of the second is trimmed. -/
def exampleToRender : List UnitToRender :=
  [exampleUnitToRender 0 0 [1 / 32768, 2 / 32768] [3 / 32768, -1 / 32768], exampleUnitToRender 1 1 [7 / 32768, 9 / 32768] [5 / 32768, 8 / 32768]]

/-- Both layouts are measured: stereo, and the eight channels of the other layout, to each of which all samples go. -/
example : exampleMeasurement exampleToRender false = some (true, [(17, 2), (136, 2)], []) := by decide +kernel

/-- **C54** (a finding).  When the loudness is not what the user has given, the mix presentations are refused, but if they are asked for once more
they are returned: without the calculators there is nothing to compare any more. -/
theorem C54_second_request_is_not_validated : exampleMeasurement exampleToRender true = some (false, [], [(17, 2), (136, 2)]) := by decide +kernel

/-- The finalizer of the example is new, all its units are taken, and some layout is rendered. -/
example : ∃ f f1 f2 : Finalizer exampleMeters noPostProcessors,
    NewFinalizer exampleEnv ⟨true, true⟩ examplePlayable.elements exampleSequence.mixes f ∧ Pushed exampleDecibels f exampleToRender f1 ∧
    f1.finish = (.ok (), f2) ∧
    ∀ o ∈ exampleSequence.mixes, SomeLayoutRenders exampleEnv ⟨true, true⟩ exampleMeters noPostProcessors examplePlayable.elements o.body := by
  have hp : ∀ {f g h : Finalizer exampleMeters noPostProcessors} {a b : UnitToRender}, f.push exampleDecibels a = (.ok (), g) →
      g.push exampleDecibels b = (.ok (), h) → Pushed exampleDecibels f [a, b] h := fun h1 h2 => .snoc (us := [_]) (.snoc (us := []) .nil h1) h2
  refine ⟨_, _, _, ⟨⟨id, fun _ => .refl _, rfl⟩, by decide⟩, hp rfl rfl, rfl, ?_⟩
  intro o ho
  simp only [exampleSequence, List.mem_singleton] at ho
  subst ho
  refine ⟨0, 0, ⟨some _, _, none, []⟩, ⟨_, _, [(_, ⟨exampleElement, some exampleCodec, ⟨[(5, [.l2, .r2])], [], [⟨2, 0, 0, 0⟩]⟩⟩)], 48000, 2, 16, rfl, rfl, ⟨⟨rfl, ?_⟩, by simp, ?_, .inl ?_⟩, rfl, .inr ⟨2, rfl, rfl, rfl, rfl⟩⟩, nofun⟩
  · intro x hx
    simp only [List.mem_singleton] at hx
    subst hx
    rfl
  · intro x hx
    simp only [List.mem_singleton] at hx
    subst hx
    exact ⟨exampleCodec, rfl, rfl, rfl⟩
  · intro x hx
    simp only [List.mem_singleton] at hx
    subst hx
    exact ⟨exampleCodec, rfl, rfl⟩

/-- Nothing can be rendered but what can be passed through. -/
def exampleOnlyThrough : RenderEnv := ⟨fun _ _ => .error .invalidArgument, fun _ => none⟩

private def finalLoudness (ms : List (Obu MixPresentation)) (us : List UnitToRender) : Option (Except Err (List (Int16 × Int16))) :=
  match Finalizer.create (some exampleOnlyThrough) ⟨true, true⟩ exampleMeters noPostProcessors id examplePlayable.elements ms with
  | .error _ => none
  | .ok f => some (((us.foldl (fun f u => (f.push exampleDecibels u).2) f).finish.2.get false).1.map loudnessOf)

/-- A mix presentation for which the user gives the loudness (5, 6). -/
def exampleLoud (layouts : List Layout) : Obu MixPresentation :=
  ⟨⟨2, false, false, 0, 0, none⟩, exampleStereoMix.withSubMixes (exampleStereoMix.subMixes.map fun s =>
    ⟨s.elements, s.outputMixGain, layouts.map fun l => ⟨l, ⟨0, 5, 6, 0, [], []⟩⟩⟩), []⟩

private def given? (x : Option (Except Err (List (Int16 × Int16)))) : Option (List (Int16 × Int16)) := x.bind Except.toOption

private def failsWith (x : Option (Except Err (List (Int16 × Int16)))) : Option Err := match x with
  | some (.error e) => some e
  | _ => none

/-- **C54** (a finding).  A layout that cannot be rendered, in a mix presentation of which another layout can, loses the loudness that the user
has given: it becomes that of no samples. -/
theorem C54_loudness_of_unrendered_layout_is_lost :
    given? (finalLoudness [exampleLoud [⟨2, .soundSystem 0 0⟩, ⟨2, .soundSystem 8 0⟩]] exampleToRender) = some [(17, 2), (0, 0)] ∧
    given? (finalLoudness [exampleLoud [⟨2, .soundSystem 8 0⟩]] exampleToRender) = some [(5, 6)] := by decide +kernel

/-- **C54** (a finding).  Two mix presentations with the same id: the first, which cannot be rendered, is taken for the second, and a layout that it
does not have is accessed. -/
theorem C54_doubled_id_is_accessed_out_of_range :
    failsWith (finalLoudness [exampleLoud [⟨2, .soundSystem 8 0⟩], exampleLoud [⟨2, .soundSystem 8 0⟩, ⟨2, .soundSystem 0 0⟩]]
      exampleToRender) = some .ub := by decide +kernel

end Iamf.Props
