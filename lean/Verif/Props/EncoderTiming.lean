import Verif.Cli.Encoder
/-
  The frame generator does not look at the timestamps of parameter blocks.
-/
namespace Iamf.Props
open Iamf

/-- Other timestamps for parameter blocks. -/
def _root_.Iamf.FrameGenerator.retimed {σ : Type} (b : List (UInt32 × TimingData)) (g : FrameGenerator σ) : FrameGenerator σ :=
  ⟨g.labels, g.elements, g.order, g.encoders, g.samples, g.data, g.trimming, g.downMixing, g.parameters, ⟨g.timing.frames, b⟩, g.phase, g.delay⟩

variable {L : EncoderLib} (b : List (UInt32 × TimingData))

/-- The same for what a function returns. -/
def retime {α σ : Type} (x : Except Err (α × FrameGenerator σ)) : Except Err (α × FrameGenerator σ) := x.map fun y => (y.1, y.2.retimed b)

theorem retime_bind {α β σ : Type} (x : Except Err (α × FrameGenerator σ)) (k k' : α × FrameGenerator σ → Except Err (β × FrameGenerator σ))
    (h : ∀ a g, k' (a, g.retimed b) = retime b (k (a, g))) : ((retime b x).bind k') = retime b (x.bind k) := by
  cases x with
  | error e => rfl
  | ok y => exact h y.1 y.2

theorem encodeFrame_retimed (g : FrameGenerator L.State) (element n id : UInt32) (d : SubstreamData) (i : List (List Rat)) (t : List (List Int32))
    (m : DownMixingParams) (s : Option Int) :
    (g.retimed b).encodeFrame L element n id d i t m s = retime b (g.encodeFrame L element n id d i t m s) := by
  unfold FrameGenerator.encodeFrame
  simp only [FrameGenerator.retimed, TimingModule.nextFrame]
  rcases timestampsForId id n g.timing.frames with ⟨⟨r, start, stop⟩, fs⟩
  cases r with
  | error e => rfl
  | ok u =>
    simp only
    by_cases hs : (s.any fun x => decide (x ≠ start)) = true
    · rw [if_pos hs, if_pos hs]; rfl
    · rw [if_neg hs, if_neg hs]
      cases g.encoders id with
      | none => rfl
      | some e =>
        simp only
        generalize L.encode e t _ = x
        cases x <;> rfl

theorem nextFrameData_retimed {σ : Type} (g : FrameGenerator σ) (linear : Int16 → Rat) (element n : UInt32) (subs : SubstreamLabels) (m : LabeledSamples)
    (mixing : DownMixingParams) :
    (g.retimed b).nextFrameData linear element n subs m mixing = retime b (g.nextFrameData linear element n subs m mixing) := by
  unfold FrameGenerator.nextFrameData
  have h1 : (g.retimed b).noSamplesLeft = g.noSamplesLeft := rfl
  have h2 : (g.retimed b).parameters = g.parameters := rfl
  have h3 : (g.retimed b).downMixing = g.downMixing := rfl
  have h4 : (g.retimed b).data = g.data := rfl
  have h5 : (g.retimed b).trimming = g.trimming := rfl
  simp only [h1, h2, h3, h4, h5]
  split
  · rfl
  · rcases g.parameters.getDownMixing element with ⟨r, p⟩
    cases r with
    | error e => rfl
    | ok q =>
      simp only [bind, Except.bind]
      cases downMixInto linear g.downMixing element q m g.data with
      | error e => rfl
      | ok x =>
        simp only
        cases padSubstreams n (m.all fun x => x.2.isEmpty) subs x g.trimming <;> rfl

theorem encodeSubstreams_retimed (element n : UInt32) (m : DownMixingParams) (subs : SubstreamLabels) :
    ∀ (r : FrameGenerator.Progress) (g : FrameGenerator L.State),
      FrameGenerator.encodeSubstreams L element n m subs r (g.retimed b) = retime b (FrameGenerator.encodeSubstreams L element n m subs r g) := by
  induction subs with
  | nil => intro r g; rfl
  | cons y subs ih =>
    intro r g
    obtain ⟨id, ls⟩ := y
    simp only [FrameGenerator.encodeSubstreams]
    have h4 : (g.retimed b).data = g.data := rfl
    rw [h4]
    cases g.data id with
    | none =>
      simp only
      split
      · rfl
      · exact ih _ _
    | some d =>
      simp only
      split
      · exact ih _ _
      · simp only [bind, Except.bind]
        cases d.enc.front with
        | error e => rfl
        | ok x =>
          simp only
          cases d.obu.front with
          | error e => rfl
          | ok z =>
            simp only
            rcases x.1 with _ | ⟨c, cs⟩
            · rfl
            · simp only
              split
              · split
                · rfl
                · exact ih ⟨r.stamp, true⟩ ⟨g.labels, g.elements, g.order, g.encoders, g.samples, _, g.trimming, g.downMixing, g.parameters, g.timing, g.phase, g.delay⟩
              · rw [encodeFrame_retimed]
                exact retime_bind b _ _ _ fun s g => ih _ _

theorem encodeLoop_retimed (linear : Int16 → Rat) (element n : UInt32) (subs : SubstreamLabels) (empties : LabeledSamples) (fuel : Nat) :
    ∀ (m : LabeledSamples) (mixing : DownMixingParams) (g : FrameGenerator L.State),
      FrameGenerator.encodeLoop L linear element n subs empties fuel m mixing (g.retimed b) =
        retime b (FrameGenerator.encodeLoop L linear element n subs empties fuel m mixing g) := by
  induction fuel with
  | zero => intro m mixing g; rfl
  | succ k ih =>
    intro m mixing g
    simp only [FrameGenerator.encodeLoop, bind]
    rw [nextFrameData_retimed]
    refine retime_bind b _ _ _ fun mixing g => ?_
    simp only
    rw [encodeSubstreams_retimed]
    refine retime_bind b _ _ _ fun r g => ?_
    simp only
    split
    · exact ih _ _ _
    · rfl

/-- The same for functions that return only a generator. -/
def retimeIn {σ : Type} (x : Except Err (FrameGenerator σ)) : Except Err (FrameGenerator σ) := x.map (·.retimed b)

theorem maybeEncode_retimed (linear : Int16 → Rat) (g : FrameGenerator L.State) (element : UInt32) (e : ElementWithData) (labels : List Label) :
    (g.retimed b).maybeEncode L linear element e labels = retimeIn b (g.maybeEncode L linear element e labels) := by
  unfold FrameGenerator.maybeEncode
  have h1 : (g.retimed b).samples = g.samples := rfl
  simp only [h1]
  split
  · rfl
  · cases e.codec with
    | none => rfl
    | some c =>
      simp only
      split
      · rfl
      · simp only [bind, encodeLoop_retimed]
        cases FrameGenerator.encodeLoop L linear element c.config.numSamplesPerFrame e.data.labels _ 16 ((g.samples element).getD []) FrameGenerator.noMixing g with
        | error e => rfl
        | ok y =>
          obtain ⟨stamp, g⟩ := y
          cases stamp with
          | none => rfl
          | some t =>
            simp only [retime, Except.map, Except.bind, FrameGenerator.retimed]
            rcases g.parameters.updateDemixing element _ with ⟨r, p⟩
            cases r <;> rfl

theorem addSamples_retimed (linear : Int16 → Rat) (g : FrameGenerator L.State) (element : UInt32) (label : Label) (s : Samples) :
    (g.retimed b).addSamples L linear element label s = retimeIn b (g.addSamples L linear element label s) := by
  unfold FrameGenerator.addSamples
  have h1 : (g.retimed b).phase = g.phase := rfl
  have h2 : (g.retimed b).labels = g.labels := rfl
  have h3 : (g.retimed b).elements = g.elements := rfl
  simp only [h1, h2, h3]
  split
  · rfl
  · split
    · rfl
    · cases g.labels element with
      | none => rfl
      | some ls =>
        simp only
        cases g.elements with
        | none => rfl
        | some es =>
          simp only
          cases es.lookup element with
          | none => rfl
          | some e => exact maybeEncode_retimed b linear ⟨g.labels, some es, _, _, _, _, _, _, _, g.timing, _, _⟩ element e ls

theorem flushElements_retimed (linear : Int16 → Rat) (es : List (UInt32 × ElementWithData)) : ∀ g : FrameGenerator L.State,
    FrameGenerator.flushElements L linear es (g.retimed b) = retimeIn b (FrameGenerator.flushElements L linear es g) := by
  induction es with
  | nil => intro g; rfl
  | cons x es ih =>
    intro g
    obtain ⟨id, e⟩ := x
    simp only [FrameGenerator.flushElements]
    have h2 : (g.retimed b).labels = g.labels := rfl
    rw [h2]
    cases g.labels id with
    | none => rfl
    | some ls =>
      simp only [bind, maybeEncode_retimed]
      cases g.maybeEncode L linear id e ls with
      | error e => rfl
      | ok g => exact ih g

theorem finalizeEncoders_retimed (ids : List UInt32) : ∀ g : FrameGenerator L.State,
    FrameGenerator.finalizeEncoders L ids (g.retimed b) = retimeIn b (FrameGenerator.finalizeEncoders L ids g) := by
  induction ids with
  | nil => intro g; rfl
  | cons id ids ih =>
    intro g
    simp only [FrameGenerator.finalizeEncoders]
    have h1 : (g.retimed b).encoders = g.encoders := rfl
    have h2 : (g.retimed b).data = g.data := rfl
    rw [h1, h2]
    cases g.encoders id with
    | none => exact ih g
    | some e =>
      cases g.data id with
      | none => exact ih g
      | some d =>
        simp only
        split
        · simp only [bind]
          cases L.finalize e with
          | error x => rfl
          | ok e => exact ih ⟨g.labels, g.elements, g.order, _, g.samples, _, g.trimming, g.downMixing, g.parameters, g.timing, g.phase, g.delay⟩
        · exact ih g

theorem popFrames_retimed {σ : Type} (ids : List UInt32) : ∀ g : FrameGenerator σ,
    FrameGenerator.popFrames ids (g.retimed b) = retime b (FrameGenerator.popFrames ids g) := by
  induction ids with
  | nil => intro g; rfl
  | cons id ids ih =>
    intro g
    simp only [FrameGenerator.popFrames]
    have h1 : (g.retimed b).encoders = g.encoders := rfl
    have h2 : (g.retimed b).trimming = g.trimming := rfl
    have h3 : (g.retimed b).elements = g.elements := rfl
    rw [h1]
    cases g.encoders id with
    | none => exact ih g
    | some e =>
      simp only [h2, h3]
      rcases e.pop with ⟨fs, e⟩
      cases fs with
      | nil => rfl
      | cons f fs =>
        simp only
        cases g.trimming id with
        | none => rfl
        | some t =>
          cases (g.elements.bind fun x => x.lookup f.1.element).bind fun x => x.codec with
          | none => rfl
          | some c =>
            simp only [bind]
            cases FrameGenerator.applyTrimming c.config.numSamplesPerFrame e.isFinished t f.1 with
            | error x => rfl
            | ok y =>
              have := ih ⟨g.labels, g.elements, g.order, g.encoders.set id e, g.samples, g.data, g.trimming.set id y.1, g.downMixing, g.parameters, g.timing, g.phase, g.delay⟩
              simp only [Except.bind]
              rw [show FrameGenerator.popFrames ids ⟨(g.retimed b).labels, g.elements, (g.retimed b).order, g.encoders.set id e, (g.retimed b).samples,
                (g.retimed b).data, g.trimming.set id y.1, (g.retimed b).downMixing, (g.retimed b).parameters, (g.retimed b).timing,
                (g.retimed b).phase, (g.retimed b).delay⟩ = _ from this]
              exact retime_bind b _ _ _ fun s g => rfl

/-- The first part of `OutputFrames`. -/
private def flushed (L : EncoderLib) (linear : Int16 → Rat) (g : FrameGenerator L.State) : Except Err (FrameGenerator L.State) :=
  match g.phase with
    | .flushing => match g.elements with
      | none => .error .ub
      | some elements => FrameGenerator.flushElements L linear elements g
    | .finalizeCalled => .ok ⟨g.labels, g.elements, g.order, g.encoders, g.samples, g.data, g.trimming, g.downMixing, g.parameters, g.timing,
        .flushing, g.delay⟩
    | .taking => .ok g

private def closed (L : EncoderLib) (g : FrameGenerator L.State) : Except Err (FrameGenerator L.State) :=
  if g.phase = .flushing then FrameGenerator.finalizeEncoders L g.order g else .ok g

private def taken (L : EncoderLib) (g : FrameGenerator L.State) : Except Err (List (GenFrame × List UInt8) × FrameGenerator L.State) :=
  if (g.order.all fun i => match g.encoders i with
    | none => true
    | some e => e.framesAvailable) then FrameGenerator.popFrames g.order g else .ok ([], g)

private theorem output_parts (linear : Int16 → Rat) (g : FrameGenerator L.State) : g.outputFrames L linear =
    (flushed L linear g).bind fun g => (closed L g).bind fun g => (taken L g).bind fun y =>
      .ok (y.1, ⟨y.2.labels, y.2.elements, y.2.order, FrameGenerator.eraseFinished y.2.encoders, y.2.samples, y.2.data, y.2.trimming, y.2.downMixing,
        y.2.parameters, y.2.timing, y.2.phase, y.2.delay⟩) := rfl

private theorem flushed_retimed (linear : Int16 → Rat) (g : FrameGenerator L.State) : flushed L linear (g.retimed b) = retimeIn b (flushed L linear g) := by
  unfold flushed
  have h1 : (g.retimed b).phase = g.phase := rfl
  have h3 : (g.retimed b).elements = g.elements := rfl
  rw [h1, h3]
  cases g.phase with
  | flushing =>
    simp only
    cases g.elements with
    | none => rfl
    | some es => exact flushElements_retimed b linear es g
  | finalizeCalled => rfl
  | taking => rfl

private theorem closed_retimed (g : FrameGenerator L.State) : closed L (g.retimed b) = retimeIn b (closed L g) := by
  unfold closed
  have h1 : (g.retimed b).phase = g.phase := rfl
  have h3 : (g.retimed b).order = g.order := rfl
  rw [h1, h3]
  split
  · exact finalizeEncoders_retimed b _ g
  · rfl

private theorem taken_retimed (g : FrameGenerator L.State) : taken L (g.retimed b) = retime b (taken L g) := by
  unfold taken
  have h1 : (g.retimed b).encoders = g.encoders := rfl
  have h3 : (g.retimed b).order = g.order := rfl
  rw [h1, h3]
  split
  · exact popFrames_retimed b _ g
  · rfl

theorem outputFrames_retimed (linear : Int16 → Rat) (g : FrameGenerator L.State) :
    (g.retimed b).outputFrames L linear = retime b (g.outputFrames L linear) := by
  rw [output_parts, output_parts, flushed_retimed]
  cases flushed L linear g with
  | error e => rfl
  | ok g =>
    simp only [retimeIn, Except.map, Except.bind]
    rw [closed_retimed]
    cases closed L g with
    | error e => rfl
    | ok g =>
      simp only [retimeIn, Except.map]
      rw [taken_retimed]
      exact retime_bind b _ _ _ fun s g => rfl

theorem call_retimed (linear : Int16 → Rat) (g : FrameGenerator L.State) (c : GeneratorCall) :
    (g.retimed b).call L linear c = retime b (g.call L linear c) := by
  cases c with
  | add e l s =>
    simp only [FrameGenerator.call, bind, addSamples_retimed]
    cases g.addSamples L linear e l s <;> rfl
  | finalize => rfl
  | output => exact outputFrames_retimed b linear g
  | addDemixing d => rfl

theorem calls_retimed (linear : Int16 → Rat) (cs : List GeneratorCall) : ∀ g : FrameGenerator L.State,
    FrameGenerator.calls L linear cs (g.retimed b) = retime b (FrameGenerator.calls L linear cs g) := by
  induction cs with
  | nil => intro g; rfl
  | cons c cs ih =>
    intro g
    simp only [FrameGenerator.calls, bind, call_retimed]
    refine retime_bind b _ _ _ fun fs g => ?_
    simp only [ih]
    exact retime_bind b _ _ _ fun _ _ => rfl

/-- Two lists of calls, one after the other. -/
theorem calls_append (linear : Int16 → Rat) (as bs : List GeneratorCall) : ∀ g : FrameGenerator L.State,
    FrameGenerator.calls L linear (as ++ bs) g = (FrameGenerator.calls L linear as g).bind fun y => (FrameGenerator.calls L linear bs y.2).bind fun z =>
      .ok (y.1 ++ z.1, z.2) := by
  induction as with
  | nil =>
    intro g
    simp only [List.nil_append, FrameGenerator.calls, Except.bind]
    cases FrameGenerator.calls L linear bs g <;> rfl
  | cons c as ih =>
    intro g
    simp only [List.cons_append, FrameGenerator.calls, bind, Except.bind]
    cases g.call L linear c with
    | error e => rfl
    | ok y =>
      simp only [ih, Except.bind]
      cases FrameGenerator.calls L linear as y.2 with
      | error e => rfl
      | ok z =>
        simp only
        cases FrameGenerator.calls L linear bs z.2 <;> rfl

end Iamf.Props
