import Verif.Cli.Render
import Verif.Cli.MixGain
import Mathlib.Algebra.Field.Rat
/-
  Rendering a mix presentation: iamf/cli/renderer/default_layout_renderer.cc, iamf/cli/layout_renderer_factory.cc and
  iamf/cli/rendering_mix_presentation_finalizer.cc (without loudness calculators and sample processors).
-/
namespace Iamf

/-- The blocks of a temporal unit by parameter id, as `PushTemporalUnit` collects them (rendering_mix_presentation_finalizer.cc:490-502):
a later block replaces an earlier one. -/
def blockById (blocks : List BlockWithData) (id : UInt32) : Option BlockWithData := blocks.reverse.find? fun b => b.obu.parameterId == id

/-- `GetAndApplyMixGain` (default_layout_renderer.cc:122-154): the samples afterwards.  The other channels are read as far as the first
one reaches. -/
def applyMixGain (M : GainMath Rat) (rate : UInt32) (blocks : UInt32 → Option BlockWithData) (gain : ParamDef) (channels : Nat)
    (samples : Rendered) : Except Err Rendered :=
  if samples.length ≠ channels then .error .invalidArgument
  else do
    let ticks := (samples.head?.getD []).length
    let g ← mixGainsPerTick M rate blocks gain ticks
    if samples.any (fun c => c.length < ticks) then .error .ub
    else .ok (samples.map fun c => List.zipWith (· * ·) (c.take ticks) g ++ c.drop ticks)

/-- `rendered_samples_for_channel[t] += …` for all channels (default_layout_renderer.cc:187-199). -/
def addRendered (a b : Rendered) : Rendered := List.zipWith (List.zipWith (· + ·)) a b

/-- `MixAudioElements` (default_layout_renderer.cc:156-202) into so many channels.  That the buffers have room is not modelled. -/
def mixElements (channels : Nat) (elements : List Rendered) : Except Err Rendered :=
  let first := elements.head?.getD []
  let ticks := (first.head?.getD []).length
  if channels ≠ first.length then .error .abort
  else if elements.any (fun e => e.length ≠ first.length ∨ e.any (fun c => c.length ≠ ticks)) then .error .invalidArgument
  else .ok (elements.foldl addRendered (List.replicate channels (List.replicate ticks 0)))

/-- What a `DefaultLayoutRenderer` keeps for each audio element (default_layout_renderer.h, layout_renderer_base.h): `last` is its
entry of `rendered_audio_elements_`. -/
structure ElementMix where
  id : UInt32
  gain : ParamDef
  renderer : ElementRenderer
  last : Rendered

/-- `DefaultLayoutRenderer` (default_layout_renderer.cc:294-305), with the trimming settings that its renderers were made with. -/
structure LayoutRenderer where
  elements : List ElementMix
  outputGain : ParamDef
  channels : Nat
  rate : UInt32
  frameSize : UInt32
  trimming : TrimmingSettings

/-- `RenderLabeledFrameToLayout` (default_layout_renderer.cc:67-88): the status, and the entry of `rendered_audio_elements_` then.
Running out of patience (`DeadlineExceeded`, for asynchronous renderers only) is `unknown`. -/
def renderFrameToLayout (frameSize : Nat) (t : TrimmingSettings) (f : RenderFrame) (r : ElementRenderer) (last : Rendered) :
    Except Err Unit × Rendered :=
  match r.render frameSize t f with
  | .error e => (.error e, last.map fun _ => [])
  | .ok (s, n) =>
    if n > frameSize then (.error .invalidArgument, last.map fun _ => [])
    else if n ≠ 0 ∧ s.any (fun c => c.isEmpty) then (.error .unknown, s)
    else (.ok (), s)

/-- One audio element in `DefaultLayoutRenderer::Render` (default_layout_renderer.cc:256-270).  Without a frame, what was rendered
before stays. -/
def renderElementMix (M : GainMath Rat) (L : LayoutRenderer) (frames : UInt32 → Option RenderFrame)
    (blocks : UInt32 → Option BlockWithData) (e : ElementMix) : Except Err Unit × Rendered :=
  match (match frames e.id with
    | none => ((.ok (), e.last) : Except Err Unit × Rendered)
    | some f => renderFrameToLayout L.frameSize.toNat L.trimming f e.renderer e.last) with
  | (.error x, s) => (.error x, s)
  | (.ok (), s) => match applyMixGain M L.rate blocks e.gain L.channels s with
    | .error x => (.error x, s)
    | .ok s => (.ok (), s)

/-- The loop over the audio elements (default_layout_renderer.cc:255-271). -/
def renderElementMixes (M : GainMath Rat) (L : LayoutRenderer) (frames : UInt32 → Option RenderFrame)
    (blocks : UInt32 → Option BlockWithData) : List ElementMix → Except Err Unit × List ElementMix
  | [] => (.ok (), [])
  | e :: es => match renderElementMix M L frames blocks e with
    | (.error x, s) => (.error x, { e with last := s } :: es)
    | (.ok (), s) => match renderElementMixes M L frames blocks es with
      | (r, es) => (r, { e with last := s } :: es)

/-- `DefaultLayoutRenderer::Render` (default_layout_renderer.cc:247-292). -/
def LayoutRenderer.render (M : GainMath Rat) (frames : UInt32 → Option RenderFrame) (blocks : UInt32 → Option BlockWithData)
    (L : LayoutRenderer) : Except Err Rendered × LayoutRenderer :=
  match renderElementMixes M L frames blocks L.elements with
  | (.error e, es) => (.error e, { L with elements := es })
  | (.ok (), es) => (do
      let mixed ← mixElements L.channels (es.map (·.last))
      applyMixGain M L.rate blocks L.outputGain L.channels mixed, { L with elements := es })

/-! ### Creation -/

/-- `DefaultLayoutRenderer::Create` (default_layout_renderer.cc:206-245): the renderers of the elements, `none` if one is missing. -/
def createElementMixes (E : RenderEnv) (d : Layout) : List (SubMixElement × ElementWithData) → Except Err (Option (List ElementMix))
  | [] => .ok (some [])
  | (s, e) :: l => do
    match ← createRenderer E e.obu e.data.labels s.rendering d with
    | none => .ok none
    | some r => do
      match ← createElementMixes E d l with
      | none => .ok none
      | some rs => .ok (some (⟨s.id, s.mixGain, r, []⟩ :: rs))

/-- `CollectAudioElementsInSubMix` (rendering_mix_presentation_finalizer.cc:72-88). -/
def collectElements (elements : List (UInt32 × ElementWithData)) : List SubMixElement → Except Err (List (SubMixElement × ElementWithData))
  | [] => .ok []
  | s :: l => match elements.lookup s.id with
    | none => .error .invalidArgument
    | some e => do
      let r ← collectElements elements l
      .ok ((s, e) :: r)

/-- `GetCommonCodecConfigPropertiesFromAudioElementIds` (rendering_mix_presentation_finalizer.cc:90-118) with
`GetCommonSampleRateAndBitDepth` (cli_util.cc:202-231), then the check for resampling (282-291): the sample rate and the frame size.
A null codec config would be dereferenced. -/
def commonProperties (es : List ElementWithData) : Except Err (UInt32 × UInt32) := do
  let cs ← es.mapM fun e => match e.codec with
    | none => .error .ub
    | some c => .ok c
  match cs with
  | [] => .error .invalidArgument
  | c :: cs =>
    if cs.any (fun x => x.config.numSamplesPerFrame ≠ c.config.numSamplesPerFrame) then .error .invalidArgument
    else if cs.any (fun x => x.outputRate ≠ c.outputRate) then .error .unimplemented
    else .ok (c.outputRate, c.config.numSamplesPerFrame)

/-- One layout in `GenerateRenderingMetadataForLayouts` (rendering_mix_presentation_finalizer.cc:204-240): its renderer, if any. -/
def createLayoutRenderer (E : RenderEnv) (t : TrimmingSettings) (s : SubMix) (es : List (SubMixElement × ElementWithData))
    (rate frameSize : UInt32) (d : Layout) : Except Err (Option LayoutRenderer) := do
  match ← orNull (numChannelsFromLayout d) with
  | none => .ok none
  | some n => do
    match ← createElementMixes E d es with
    | none => .ok none
    | some rs => .ok (some ⟨rs, s.outputMixGain, n.toNat, rate, frameSize, t⟩)

/-- A layout with what `RenderingMixPresentationFinalizer` keeps for it: the renderer and `valid_rendered_samples`. -/
structure LayoutState where
  renderer : Option LayoutRenderer
  valid : Rendered

/-- One sub-mix in `GenerateRenderingMetadataForSubMixes` (rendering_mix_presentation_finalizer.cc:262-297). -/
def createSubMix (E : RenderEnv) (t : TrimmingSettings) (elements : List (UInt32 × ElementWithData)) (s : SubMix) :
    Except Err (List LayoutState) := do
  let es ← collectElements elements s.elements
  let (rate, frameSize) ← commonProperties (es.map (·.2))
  s.layouts.mapM fun l => do
    let r ← createLayoutRenderer E t s es rate frameSize l.layout
    .ok ⟨r, []⟩

/-- `RenderingMixPresentationFinalizer` for one mix presentation; `none` if no layout can be rendered
(rendering_mix_presentation_finalizer.cc:60-70, 445-465). -/
def createMix (E : RenderEnv) (t : TrimmingSettings) (elements : List (UInt32 × ElementWithData)) (m : MixPresentation) :
    Except Err (Option (List (List LayoutState))) := do
  let ss ← m.subMixes.mapM (createSubMix E t elements)
  if ss.any (fun s => s.any fun l => l.renderer.isSome) then .ok (some ss) else .ok none

/-! ### Temporal units -/

/-- The layouts of a sub-mix in `RenderWriteAndCalculateLoudnessForTemporalUnit` (rendering_mix_presentation_finalizer.cc:349-387). -/
def renderLayouts (M : GainMath Rat) (frames : UInt32 → Option RenderFrame) (blocks : UInt32 → Option BlockWithData) :
    List LayoutState → Except Err Unit × List LayoutState
  | [] => (.ok (), [])
  | l :: ls => match l.renderer with
    | none => match renderLayouts M frames blocks ls with
      | (r, ls) => (r, l :: ls)
    | some R => match R.render M frames blocks with
      | (.error e, R) => (.error e, ⟨some R, l.valid⟩ :: ls)
      | (.ok s, R) => match renderLayouts M frames blocks ls with
        | (r, ls) => (r, ⟨some R, s⟩ :: ls)

/-- The sub-mixes in `RenderWriteAndCalculateLoudnessForTemporalUnit`. -/
def renderSubMixes (M : GainMath Rat) (frames : UInt32 → Option RenderFrame) (blocks : UInt32 → Option BlockWithData) :
    List (List LayoutState) → Except Err Unit × List (List LayoutState)
  | [] => (.ok (), [])
  | s :: ss => match renderLayouts M frames blocks s with
    | (.error e, s) => (.error e, s :: ss)
    | (.ok (), s) => match renderSubMixes M frames blocks ss with
      | (r, ss) => (r, s :: ss)

/-- `RenderingMixPresentationFinalizer::PushTemporalUnit` (rendering_mix_presentation_finalizer.cc:472-510) while temporal units are
accepted, for the one mix presentation there is. -/
def pushRenderUnit (M : GainMath Rat) (frames : UInt32 → Option RenderFrame) (start stop : Int) (blocks : List BlockWithData)
    (mix : Option (List (List LayoutState))) : Except Err Unit × Option (List (List LayoutState)) :=
  if blocks.any (fun b => b.start ≠ start ∨ b.stop ≠ stop) then (.error .invalidArgument, mix)
  else match mix with
    | none => (.ok (), none)
    | some ss => match renderSubMixes M frames (blockById blocks) ss with
      | (r, ss) => (r, some ss)

/-- `GetPostProcessedSamplesAsSpan` (rendering_mix_presentation_finalizer.cc:389-421, 512-532) for the mix presentation. -/
def renderedSamples (mix : Option (List (List LayoutState))) (subMix layout : Nat) : Except Err Rendered :=
  match mix with
  | none => .error .notFound
  | some ss => match ss[subMix]? with
    | none => .error .invalidArgument
    | some ls => match ls[layout]? with
      | none => .error .invalidArgument
      | some l => .ok l.valid

end Iamf
