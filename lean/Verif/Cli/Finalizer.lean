import Verif.Cli.MixRender
import Verif.Cli.Sequencer
/-
  iamf/cli/rendering_mix_presentation_finalizer.cc: all mix presentations are rendered, their loudness is measured, and the samples are
  given to post-processors.
-/
namespace Iamf

/-- `LoudnessCalculatorFactoryBase` and `LoudnessCalculatorBase` (loudness_calculator_factory_base.h, loudness_calculator_base.h), which
are not modelled.  Without a factory `create` gives `none`. -/
structure Meters where
  State : Type
  create : MixLayout → UInt32 → UInt32 → Option State
  accumulate : State → Rendered → Except Err Unit × State
  query : State → Except Err LoudnessInfo

/-- `SampleProcessorFactory` and `SampleProcessorBase` (rendering_mix_presentation_finalizer.h, sample_processor_base.h), which are not
modelled.  The arguments of `create` are the id of the mix presentation, the indices of the sub-mix and of the layout, the layout, its
number of channels, the sample rate, the bit depth and the frame size. -/
structure PostProcessors where
  State : Type
  create : UInt32 → Nat → Nat → Layout → Int → UInt32 → UInt8 → UInt32 → Option State
  push : State → Rendered → Except Err Unit × State
  flush : State → Except Err Unit × State
  output : State → Rendered

/-- `LayoutRenderingMetadata` (rendering_mix_presentation_finalizer.h). -/
structure MeasuredLayout (Q : Meters) (S : PostProcessors) where
  renderer : Option LayoutRenderer
  meter : Option Q.State
  post : Option S.State
  valid : Rendered

variable {Q : Meters} {S : PostProcessors}

/-! ### Creation -/

/-- The bit depth of `GetCommonSampleRateAndBitDepth` (cli_util.cc:222-228) for the audio elements of a sub-mix
(rendering_mix_presentation_finalizer.cc:99-105). -/
def commonDepth (es : List ElementWithData) : UInt8 :=
  match es.filterMap (·.codec) with
  | [] => 16
  | c :: cs => if cs.any (fun x => x.bitDepth ≠ c.bitDepth) then 16 else c.bitDepth

/-- One layout in `GenerateRenderingMetadataForLayouts` (rendering_mix_presentation_finalizer.cc:204-240). -/
def createMeasured (E : RenderEnv) (t : TrimmingSettings) (Q : Meters) (S : PostProcessors) (id : UInt32) (s : SubMix)
    (es : List (SubMixElement × ElementWithData)) (rate frameSize : UInt32) (i j : Nat) (l : MixLayout) : Except Err (MeasuredLayout Q S) := do
  match ← orNull (numChannelsFromLayout l.layout) with
  | none => .ok ⟨none, none, none, []⟩
  | some n => do
    let r ← createLayoutRenderer E t s es rate frameSize l.layout
    .ok ⟨r, Q.create l frameSize rate, S.create id i j l.layout n rate (commonDepth (es.map (·.2))) frameSize, []⟩

/-- The loop over the layouts of a sub-mix from an index on (rendering_mix_presentation_finalizer.cc:203-241). -/
def createMeasuredLayouts (E : RenderEnv) (t : TrimmingSettings) (Q : Meters) (S : PostProcessors) (id : UInt32) (s : SubMix)
    (es : List (SubMixElement × ElementWithData)) (rate frameSize : UInt32) (i : Nat) : Nat → List MixLayout →
    Except Err (List (MeasuredLayout Q S))
  | _, [] => .ok []
  | j, l :: ls => do
    let x ← createMeasured E t Q S id s es rate frameSize i j l
    let xs ← createMeasuredLayouts E t Q S id s es rate frameSize i (j + 1) ls
    .ok (x :: xs)

/-- `GenerateRenderingMetadataForSubMixes` (rendering_mix_presentation_finalizer.cc:251-299) from an index on. -/
def createMeasuredSubMixes (E : RenderEnv) (t : TrimmingSettings) (Q : Meters) (S : PostProcessors)
    (elements : List (UInt32 × ElementWithData)) (id : UInt32) : Nat → List SubMix → Except Err (List (List (MeasuredLayout Q S)))
  | _, [] => .ok []
  | i, s :: ss => do
    let es ← collectElements elements s.elements
    let p ← commonProperties (es.map (·.2))
    let x ← createMeasuredLayouts E t Q S id s es p.1 p.2 i 0 s.layouts
    let xs ← createMeasuredSubMixes E t Q S elements id (i + 1) ss
    .ok (x :: xs)

/-- `CanRenderAnyLayout` (rendering_mix_presentation_finalizer.cc:60-70). -/
def canRenderAny (ss : List (List (MeasuredLayout Q S))) : Bool := ss.any fun s => s.any fun x => x.renderer.isSome

/-- The states of the class (rendering_mix_presentation_finalizer.h). -/
inductive FinalizerPhase where
  | accepting
  | finished
  | flushed
  deriving DecidableEq, Repr

/-- `RenderingMixPresentationFinalizer`; `mixes` is a hash map, in the order of iteration. -/
structure Finalizer (Q : Meters) (S : PostProcessors) where
  mixes : List (UInt32 × List (List (MeasuredLayout Q S)))
  obus : List (Obu MixPresentation)
  phase : FinalizerPhase

/-- The loop of `Create` (rendering_mix_presentation_finalizer.cc:442-465): `emplace` does not replace. -/
def createMeasuredMixes (E : RenderEnv) (t : TrimmingSettings) (Q : Meters) (S : PostProcessors) (elements : List (UInt32 × ElementWithData)) :
    List (Obu MixPresentation) → List (UInt32 × List (List (MeasuredLayout Q S))) →
    Except Err (List (UInt32 × List (List (MeasuredLayout Q S))))
  | [], m => .ok m
  | o :: os, m => do
    let ss ← createMeasuredSubMixes E t Q S elements o.body.id 0 o.body.subMixes
    createMeasuredMixes E t Q S elements os
      (if canRenderAny ss = true ∧ m.lookup o.body.id = none then m ++ [(o.body.id, ss)] else m)

/-- `RenderingMixPresentationFinalizer::Create` (rendering_mix_presentation_finalizer.cc:425-470).  Without a factory of renderers (`E` is
`none`) nothing is rendered.  `shuffle` gives the order in which the hash map is iterated over. -/
def Finalizer.create (E : Option RenderEnv) (t : TrimmingSettings) (Q : Meters) (S : PostProcessors)
    (shuffle : List (UInt32 × List (List (MeasuredLayout Q S))) → List (UInt32 × List (List (MeasuredLayout Q S))))
    (elements : List (UInt32 × ElementWithData)) (obus : List (Obu MixPresentation)) : Except Err (Finalizer Q S) :=
  match E with
  | none => .ok ⟨[], obus, .accepting⟩
  | some E => do
    let m ← createMeasuredMixes E t Q S elements obus []
    .ok ⟨shuffle m, obus, .accepting⟩

/-! ### Temporal units -/

/-- An optional object that takes the samples (rendering_mix_presentation_finalizer.cc:370-383). -/
def feed {σ : Type} (take : σ → Rendered → Except Err Unit × σ) (x : Option σ) (s : Rendered) : Except Err Unit × Option σ :=
  match x with
  | none => (.ok (), none)
  | some q => match take q s with
    | (r, q) => (r, some q)

/-- One layout in `RenderWriteAndCalculateLoudnessForTemporalUnit` (rendering_mix_presentation_finalizer.cc:355-384). -/
def MeasuredLayout.push (M : GainMath Rat) (frames : UInt32 → Option RenderFrame) (blocks : UInt32 → Option BlockWithData)
    (x : MeasuredLayout Q S) : Except Err Unit × MeasuredLayout Q S :=
  match x.renderer with
  | none => (.ok (), x)
  | some R => match R.render M frames blocks with
    | (.error e, R) => (.error e, ⟨some R, x.meter, x.post, x.valid⟩)
    | (.ok s, R) => match feed Q.accumulate x.meter s with
      | (.error e, q) => (.error e, ⟨some R, q, x.post, s⟩)
      | (.ok (), q) => match feed S.push x.post s with
        | (r, p) => (r, ⟨some R, q, p, s⟩)

/-- A loop that stops at the first error. -/
def pushEach {α : Type} (f : α → Except Err Unit × α) : List α → Except Err Unit × List α
  | [] => (.ok (), [])
  | a :: l => match f a with
    | (.error e, a) => (.error e, a :: l)
    | (.ok (), a) => match pushEach f l with
      | (r, l) => (r, a :: l)

/-- A temporal unit as it is given to `PushTemporalUnit`. -/
structure UnitToRender where
  frames : UInt32 → Option RenderFrame
  start : Int
  stop : Int
  blocks : List BlockWithData

/-- `RenderWriteAndCalculateLoudnessForTemporalUnit` (rendering_mix_presentation_finalizer.cc:349-387). -/
def pushMeasured (M : GainMath Rat) (u : UnitToRender) (x : UInt32 × List (List (MeasuredLayout Q S))) :
    Except Err Unit × (UInt32 × List (List (MeasuredLayout Q S))) :=
  match pushEach (pushEach (MeasuredLayout.push M u.frames (blockById u.blocks))) x.2 with
  | (r, ss) => (r, (x.1, ss))

/-- `PushTemporalUnit` (rendering_mix_presentation_finalizer.cc:472-510). -/
def Finalizer.push (M : GainMath Rat) (u : UnitToRender) (f : Finalizer Q S) : Except Err Unit × Finalizer Q S :=
  if f.phase ≠ .accepting then (.error .failedPrecondition, f)
  else if u.blocks.any (fun b => b.start ≠ u.start ∨ b.stop ≠ u.stop) then (.error .invalidArgument, f)
  else match pushEach (pushMeasured M u) f.mixes with
    | (r, m) => (r, ⟨m, f.obus, f.phase⟩)

/-- `GetPostProcessedSamplesAsSpan` (rendering_mix_presentation_finalizer.cc:389-421, 512-532). -/
def Finalizer.samples (f : Finalizer Q S) (id : UInt32) (i j : Nat) : Except Err Rendered :=
  match f.mixes.lookup id with
  | none => .error .notFound
  | some ss => match ss[i]? with
    | none => .error .invalidArgument
    | some xs => match xs[j]? with
      | none => .error .invalidArgument
      | some x => match x.post with
        | some p => .ok (S.output p)
        | none => .ok x.valid

/-! ### The end -/

/-- One layout in `FlushPostProcessors` (rendering_mix_presentation_finalizer.cc:304-308). -/
def MeasuredLayout.flush (x : MeasuredLayout Q S) : Except Err Unit × MeasuredLayout Q S :=
  match x.post with
  | none => (.ok (), x)
  | some p => match S.flush p with
    | (r, p) => (r, ⟨x.renderer, x.meter, some p, x.valid⟩)

/-- `FlushPostProcessors` (rendering_mix_presentation_finalizer.cc:301-312). -/
def flushMeasured (x : UInt32 × List (List (MeasuredLayout Q S))) : Except Err Unit × (UInt32 × List (List (MeasuredLayout Q S))) :=
  match pushEach (pushEach MeasuredLayout.flush) x.2 with
  | (r, ss) => (r, (x.1, ss))

/-- `FinalizePushingTemporalUnits` (rendering_mix_presentation_finalizer.cc:534-550). -/
def Finalizer.finish (f : Finalizer Q S) : Except Err Unit × Finalizer Q S :=
  match f.phase with
  | .accepting => match pushEach flushMeasured f.mixes with
    | (r, m) => (r, ⟨m, f.obus, .finished⟩)
  | _ => (.error .failedPrecondition, f)

/-- `ValidateUserLoudness` (rendering_mix_presentation_finalizer.cc:120-161): nothing is reported here. -/
def matchesUser (measured user : LoudnessInfo) : Bool :=
  measured.integratedLoudness == user.integratedLoudness && measured.digitalPeak == user.digitalPeak &&
    (measured.infoType &&& 1 == 0 || measured.truePeak == user.truePeak)

/-- One layout in `FillLoudnessForMixPresentation` (rendering_mix_presentation_finalizer.cc:323-336) with `UpdateLoudnessInfoForLayout`
(167-187): the result with `loudness_matches_user_data`, and the layout.  The calculator is gone afterwards. -/
def fillLayout (validate : Bool) (x : MeasuredLayout Q S) (l : MixLayout) (same : Bool) : Except Err Bool × MeasuredLayout Q S × MixLayout :=
  match x.meter with
  | none => (.ok same, x, l)
  | some q => match Q.query q with
    | .error e => (.error e, ⟨x.renderer, none, x.post, x.valid⟩, l)
    | .ok info => (.ok (same && (!validate || matchesUser info l.loudness)), ⟨x.renderer, none, x.post, x.valid⟩, ⟨l.layout, info⟩)

/-- The loop over the layouts (rendering_mix_presentation_finalizer.cc:322-338).  A layout that the mix presentation does not have would be
accessed out of range. -/
def fillLayouts (validate : Bool) : List (MeasuredLayout Q S) → List MixLayout → Bool → Except Err Bool × List (MeasuredLayout Q S) × List MixLayout
  | [], ls, same => (.ok same, [], ls)
  | x :: xs, [], same => if x.meter.isSome then (.error .ub, x :: xs, []) else match fillLayouts validate xs [] same with
    | (r, xs, ls) => (r, x :: xs, ls)
  | x :: xs, l :: ls, same => match fillLayout validate x l same with
    | (.error e, x, l) => (.error e, x :: xs, l :: ls)
    | (.ok same, x, l) => match fillLayouts validate xs ls same with
      | (r, xs, ls) => (r, x :: xs, l :: ls)

/-- The loop over the sub-mixes (rendering_mix_presentation_finalizer.cc:319-340). -/
def fillSubMixes (validate : Bool) : List (List (MeasuredLayout Q S)) → List SubMix → Bool →
    Except Err Bool × List (List (MeasuredLayout Q S)) × List SubMix
  | [], ss, same => (.ok same, [], ss)
  | x :: xs, [], same => if x.any (fun y => y.meter.isSome) then (.error .ub, x :: xs, []) else match fillSubMixes validate xs [] same with
    | (r, xs, ss) => (r, x :: xs, ss)
  | x :: xs, s :: ss, same => match fillLayouts validate x s.layouts same with
    | (.error e, x, ls) => (.error e, x :: xs, ⟨s.elements, s.outputMixGain, ls⟩ :: ss)
    | (.ok same, x, ls) => match fillSubMixes validate xs ss same with
      | (r, xs, ss) => (r, x :: xs, ⟨s.elements, s.outputMixGain, ls⟩ :: ss)

/-- A mix presentation with other sub-mixes. -/
def MixPresentation.withSubMixes (m : MixPresentation) (ss : List SubMix) : MixPresentation :=
  ⟨m.id, m.countLabel, m.languages, m.annotations, ss, m.tags, m.optionalFields⟩

/-- Replace the entry of an id. -/
def setMeasured (id : UInt32) (ss : List (List (MeasuredLayout Q S))) :
    List (UInt32 × List (List (MeasuredLayout Q S))) → List (UInt32 × List (List (MeasuredLayout Q S)))
  | [] => []
  | (i, x) :: m => if i = id then (i, ss) :: m else (i, x) :: setMeasured id ss m

/-- The loop of `GetFinalizedMixPresentationObus` (rendering_mix_presentation_finalizer.cc:568-584) with the end of
`FillLoudnessForMixPresentation` (341-344). -/
def fillMixes (validate : Bool) : List (Obu MixPresentation) → List (UInt32 × List (List (MeasuredLayout Q S))) →
    Except Err Unit × List (UInt32 × List (List (MeasuredLayout Q S))) × List (Obu MixPresentation)
  | [], m => (.ok (), m, [])
  | o :: os, m => match m.lookup o.body.id with
    | none => match fillMixes validate os m with
      | (r, m, os) => (r, m, o :: os)
    | some ss => match fillSubMixes validate ss o.body.subMixes true with
      | (.error e, ss, subs) => (.error e, setMeasured o.body.id ss m, ⟨o.header, o.body.withSubMixes subs, o.footer⟩ :: os)
      | (.ok false, ss, subs) => (.error .invalidArgument, setMeasured o.body.id ss m, ⟨o.header, o.body.withSubMixes subs, o.footer⟩ :: os)
      | (.ok true, ss, subs) => match fillMixes validate os (setMeasured o.body.id ss m) with
        | (r, m, os) => (r, m, ⟨o.header, o.body.withSubMixes subs, o.footer⟩ :: os)

/-- `GetFinalizedMixPresentationObus` (rendering_mix_presentation_finalizer.cc:552-591). -/
def Finalizer.get (validate : Bool) (f : Finalizer Q S) : Except Err (List (Obu MixPresentation)) × Finalizer Q S :=
  match f.phase with
  | .finished => match fillMixes validate f.obus f.mixes with
    | (.error e, m, os) => (.error e, ⟨m, os, .finished⟩)
    | (.ok (), m, os) => (.ok os, ⟨m, [], .flushed⟩)
  | _ => (.error .failedPrecondition, f)

end Iamf
