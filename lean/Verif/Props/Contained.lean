import Verif.Cli.DecoderWhole
import Verif.Props.EndToEnd
/-
  C49: a decoder that was created from descriptors and gets whole temporal units is a queue.
-/
namespace Iamf.Props
open Iamf

/-! ### Specification -/

/-- A temporal unit as the user of a decoder sees it: its bytes, and the bytes of its samples. -/
structure PlayedUnit where
  bytes : List UInt8
  samples : List UInt8

/-- What the user does: give the next temporal units to `Decode`, any number of them; call `GetOutputTemporalUnit` with a buffer of some
size; call `SignalEndOfDecoding`. -/
inductive UnitOp where
  | feed (count : Nat)
  | take (size : Nat)
  | finish

/-- What the user has to know: the units that were given and not yet taken, in their order, the units to be given, and whether the end was
signalled. -/
structure UnitQueue where
  waiting : List PlayedUnit
  coming : List PlayedUnit
  ended : Bool

/-- The call of the interface. -/
def UnitOp.call (q : UnitQueue) : UnitOp → DecoderCall
  | .feed n => .decode ((q.coming.take n).map PlayedUnit.bytes).flatten
  | .take size => .getOutput size
  | .finish => .signalEnd

/-- What is given out: the samples of the unit that has waited longest, or nothing. -/
def UnitOp.answer (q : UnitQueue) : UnitOp → List UInt8
  | .take _ => match q.waiting with
    | [] => []
    | u :: _ => u.samples
  | _ => []

/-- What happens to the queue. -/
def UnitOp.next (q : UnitQueue) : UnitOp → UnitQueue
  | .feed n => ⟨q.waiting ++ q.coming.take n, q.coming.drop n, q.ended⟩
  | .take _ => ⟨q.waiting.tail, q.coming, q.ended⟩
  | .finish => ⟨q.waiting, q.coming, true⟩

/-- No data after the end and at most 4 MiB waiting; buffers are as large as the samples. -/
def UnitOp.Allowed (q : UnitQueue) : UnitOp → Prop
  | .feed n => q.ended = false ∧ ((q.waiting ++ q.coming.take n).map PlayedUnit.bytes).flatten.length ≤ 4194304
  | .take size => ∀ u ∈ q.waiting.head?, u.samples.length ≤ size
  | .finish => True

/-- A history: all calls, what they have to give out, the queue at the end, and whether all of them are allowed. -/
def UnitQueue.calls : UnitQueue → List UnitOp → List DecoderCall
  | _, [] => []
  | q, o :: os => o.call q :: UnitQueue.calls (o.next q) os

@[inherit_doc UnitQueue.calls]
def UnitQueue.answers : UnitQueue → List UnitOp → List (List UInt8)
  | _, [] => []
  | q, o :: os => o.answer q :: UnitQueue.answers (o.next q) os

@[inherit_doc UnitQueue.calls]
def UnitQueue.after : UnitQueue → List UnitOp → UnitQueue
  | q, [] => q
  | q, o :: os => UnitQueue.after (o.next q) os

@[inherit_doc UnitQueue.calls]
def UnitQueue.Allowed : UnitQueue → List UnitOp → Prop
  | _, [] => True
  | q, o :: os => o.Allowed q ∧ UnitQueue.Allowed (o.next q) os

/-- Samples in the order of channels the user asked for (C33). -/
def Arranged (s : DecoderSettings) (layout : Layout) (x y : Rendered) : Prop :=
  match Decoder.soundSystem layout with
  | none => y = x
  | some system => reorderChannels s.android system x = .ok y

/-- The bytes of the samples of a unit, of which there are some. -/
def Sounding (s : DecoderSettings) (layout : Layout) (x : Rendered) (bytes : List UInt8) : Prop :=
  ∃ y, Arranged s layout x y ∧ y ≠ [] ∧ OutputBytes s.sampleType y bytes

/-! ### Proof -/

variable {B : Backend}

private structure Holding (s : DecoderSettings) (layout : Layout) (q : UnitQueue) (d : Decoder B) (p : Processor B) (W : List PlayedUnit)
    (xs : List Rendered) : Prop where
  whole : Whole d p (W.map fun u => bytesBits u.bytes) (q.coming.map fun u => bytesBits u.bytes) xs
  settings : d.settings = s
  ended : d.ended = q.ended
  same : p.layout = layout
  order : d.reorderer = none ∨ d.reorderer = Decoder.soundSystem layout
  sounds : List.Forall₂ (fun x (u : PlayedUnit) => Sounding s layout x u.samples) xs (W ++ q.coming)

private structure Queued (s : DecoderSettings) (layout : Layout) (q : UnitQueue) (d : Decoder B) (p : Processor B) (xs : List Rendered) : Prop where
  holding : Holding s layout q d p q.waiting.tail xs
  head : match q.waiting with
    | [] => d.pending = []
    | u :: _ => d.pending ≠ [] ∧ OutputBytes s.sampleType d.pending u.samples ∧ d.reorderer = Decoder.soundSystem layout

private theorem reordered_arranged {s : DecoderSettings} {layout : Layout} {d : Decoder B} {x y : Rendered} (hs : d.settings = s)
    (hr : d.reorderer = Decoder.soundSystem layout) (h : Arranged s layout x y) : d.reordered x = .ok y := by
  unfold Decoder.reordered
  rw [hr, hs]
  unfold Arranged at h
  cases hl : Decoder.soundSystem layout with
  | none => rw [hl] at h; simp only at h ⊢; rw [h]
  | some system => rw [hl] at h; simp only at h ⊢; rw [h]

/-- `DecodeOneTemporalUnit` with nothing pending. -/
private theorem Holding.decodeOne {s : DecoderSettings} {layout : Layout} {q : UnitQueue} {d : Decoder B} {p : Processor B}
    {xs : List Rendered} (h : Holding s layout q d p q.waiting xs) (hp : d.pending = [])
    (hr : d.reorderer = Decoder.soundSystem layout) :
    ∃ d' p' xs', Decoder.decodeOne true d = (.ok (), d') ∧ Queued s layout q d' p' xs' := by
  have hre : ∀ x ∈ xs, ∃ y, d.reordered x = .ok y := by
    intro x hx
    obtain ⟨i, hi, rfl⟩ := List.getElem_of_mem hx
    have hl := h.sounds.length_eq
    obtain ⟨y, h1, -, -⟩ := (List.forall₂_iff_get.mp h.sounds).2 i hi (by omega)
    exact ⟨y, reordered_arranged h.settings hr h1⟩
  obtain ⟨d', p', e1, e2, e3, e4, -, e5, e6⟩ := h.whole.decodeOne hre
  obtain ⟨waiting, coming, ended⟩ := q
  cases waiting with
  | nil =>
    simp only [List.map_nil] at e6
    refine ⟨d', p', xs, e1, ⟨⟨e6.1, by rw [e2, h.settings], by rw [e3, h.ended], by rw [e5, h.same], by rw [e4]; exact h.order, h.sounds⟩, ?_⟩⟩
    simp only
    rw [e6.2, hp]
  | cons u rest =>
    simp only [List.map_cons] at e6
    obtain ⟨x, xs', rfl, f1, f2⟩ := e6
    have hsnd := h.sounds
    simp only [List.cons_append] at hsnd
    cases hsnd with
    | cons g1 g2 =>
      obtain ⟨y, a1, a2, a3⟩ := g1
      rw [reordered_arranged h.settings hr a1] at f1
      obtain rfl := Except.ok.inj f1
      exact ⟨d', p', xs', e1, ⟨⟨f2, by rw [e2, h.settings], by rw [e3, h.ended], by rw [e5, h.same], by rw [e4]; exact h.order, g2⟩,
        a2, a3, by rw [e4, hr]⟩⟩

private theorem flatten_bits (l : List PlayedUnit) :
    (l.map fun u => bytesBits u.bytes).flatten.length = 8 * (l.map PlayedUnit.bytes).flatten.length := by
  induction l with
  | nil => rfl
  | cons a l ih => simp only [List.map_cons, List.flatten_cons, List.length_append, ih, bytesBits_length]; omega

/-- Pushing the next units. -/
private theorem Queued.push {s : DecoderSettings} {layout : Layout} {q : UnitQueue} {d : Decoder B} {p : Processor B} {xs : List Rendered}
    (h : Queued s layout q d p xs) {n : Nat} (hn : (UnitOp.feed n).Allowed q) :
    ∃ b, d.buffer.pushBytes ((q.coming.take n).map PlayedUnit.bytes).flatten = (.ok (), b) ∧
      Holding s layout ((UnitOp.feed n).next q)
        { d with buffer := b, processor := some p, reorderer := Decoder.soundSystem layout } p (q.waiting.tail ++ q.coming.take n) xs := by
  obtain ⟨-, hn⟩ := hn
  have hw := h.holding.whole
  rw [← List.take_append_drop n q.coming, List.map_append] at hw
  have hm : ((q.coming.take n).map fun u => bytesBits u.bytes) = ((q.coming.take n).map PlayedUnit.bytes).map bytesBits := by
    rw [List.map_map]; rfl
  rw [hm] at hw
  have hsz : ((q.waiting.tail).map fun u => bytesBits u.bytes).flatten.length + 8 * ((q.coming.take n).map PlayedUnit.bytes).flatten.length ≤
      8 * 4194304 := by
    rw [flatten_bits]
    rw [List.map_append, List.flatten_append, List.length_append] at hn
    have : (q.waiting.tail.map PlayedUnit.bytes).flatten.length ≤ (q.waiting.map PlayedUnit.bytes).flatten.length := by
      cases q.waiting with
      | nil => exact Nat.le_refl _
      | cons a l => simp only [List.tail_cons, List.map_cons, List.flatten_cons, List.length_append]; omega
    omega
  obtain ⟨b, hb, hwh⟩ := hw.push hsz (Decoder.soundSystem layout)
  refine ⟨b, hb, ?_, h.holding.settings, h.holding.ended, h.holding.same, .inr rfl, ?_⟩
  · rw [List.map_append, hm]; exact hwh
  · have := h.holding.sounds
    rw [← List.take_append_drop n q.coming, ← List.append_assoc] at this
    exact this

/-- `Decode` when there is a processor. -/
private theorem decode_pushed {d : Decoder B} {p : Processor B} {b : RBuf} {bytes : List UInt8} {layout : Layout} (he : d.ended = false)
    (hb : d.buffer.pushBytes bytes = (.ok (), b)) (hp : d.processor = some p) (hl : p.layout = layout)
    (hr : d.reorderer = none ∨ d.reorderer = Decoder.soundSystem layout) :
    d.decode bytes = if d.pending.isEmpty then
        Decoder.decodeOne d.fromDescriptors { d with buffer := b, processor := some p, reorderer := Decoder.soundSystem layout }
      else (.ok (), { d with buffer := b, processor := some p, reorderer := Decoder.soundSystem layout }) := by
  unfold Decoder.decode
  simp only [he, Bool.false_eq_true, ↓reduceIte, hb, hp, hl]
  cases hs : Decoder.soundSystem layout with
  | some x => rfl
  | none =>
    have : d.reorderer = none := by rcases hr with e | e <;> simp [e, hs]
    simp only [this]

private theorem Queued.call {s : DecoderSettings} {layout : Layout} {q : UnitQueue} {d : Decoder B} {p : Processor B} {xs : List Rendered}
    (h : Queued s layout q d p xs) (o : UnitOp) (ho : o.Allowed q) :
    ∃ d' p' xs', d.call (o.call q) = (.ok (o.answer q), d') ∧ Queued s layout (o.next q) d' p' xs' := by
  cases o with
  | feed n =>
    obtain ⟨b, hb, hh⟩ := h.push ho
    have he : d.ended = false := by rw [h.holding.ended]; exact ho.1
    rw [show (UnitOp.feed n).call q = .decode ((q.coming.take n).map PlayedUnit.bytes).flatten from rfl]
    simp only [UnitOp.answer, Decoder.call]
    rw [decode_pushed he hb h.holding.whole.processor h.holding.same h.holding.order]
    have hfd := h.holding.whole.mode
    have hhead := h.head
    cases hq : q.waiting with
    | nil =>
      rw [hq] at hhead
      simp only at hhead
      have hh2 : Holding s layout ((UnitOp.feed n).next q)
          { d with buffer := b, processor := some p, reorderer := Decoder.soundSystem layout } p ((UnitOp.feed n).next q).waiting xs := by
        rw [hq] at hh
        rw [show ((UnitOp.feed n).next q).waiting = q.waiting ++ q.coming.take n from rfl, hq]
        exact hh
      obtain ⟨d', p', xs', g1, g2⟩ := hh2.decodeOne hhead rfl
      rw [if_pos (by simp [hhead]), show Decoder.decodeOne (B := B) d.fromDescriptors = Decoder.decodeOne true by rw [hfd], g1]
      exact ⟨d', p', xs', rfl, g2⟩
    | cons u rest =>
      rw [hq] at hhead
      simp only at hhead
      rw [if_neg (by simpa using hhead.1)]
      have hpr := h.holding.whole.processor
      obtain ⟨a1, a2, a3, a4, a5, a6, a7, a8⟩ := d
      simp only at hpr hh hhead he hfd ⊢
      subst hpr he hfd
      refine ⟨_, p, xs, rfl, ⟨?_, ?_⟩⟩
      · rw [hq] at hh
        rw [show ((UnitOp.feed n).next q).waiting.tail = rest ++ q.coming.take n by
          simp only [UnitOp.next, hq, List.cons_append, List.tail_cons]]
        exact hh
      · simp only [UnitOp.next, hq, List.cons_append]
        exact ⟨hhead.1, hhead.2.1, by trivial⟩
  | take size =>
    have hhead := h.head
    simp only [UnitOp.call, UnitOp.answer, Decoder.call, Decoder.getOutput]
    cases hq : q.waiting with
    | nil =>
      rw [hq] at hhead
      simp only at hhead
      simp only [hhead, List.isEmpty_nil, ↓reduceIte]
      refine ⟨d, p, xs, rfl, ⟨?_, ?_⟩⟩
      · have hh := h.holding
        rw [hq] at hh
        rw [show ((UnitOp.take size).next q) = q by
          obtain ⟨w, c, e⟩ := q
          simp only at hq
          subst hq
          rfl]
        rw [hq]
        exact hh
      · simp only [UnitOp.next, hq, List.tail_nil]
        exact hhead
    | cons u rest =>
      rw [hq] at hhead
      simp only at hhead
      obtain ⟨h1, h2, h3⟩ := hhead
      have hsize : u.samples.length ≤ size := ho u (by rw [hq]; rfl)
      have hwr := C32_exact_buffer _ _ _ _ _ h2 hsize
      rw [← h.holding.settings] at hwr
      rw [if_neg (by simpa using h1), hwr]
      simp only
      rw [show Decoder.decodeOne (B := B) (d.fromDescriptors || d.ended) = Decoder.decodeOne true by rw [h.holding.whole.mode, Bool.true_or]]
      have hh := h.holding
      rw [hq, List.tail_cons] at hh
      have hw := hh.whole
      have hh2 : Holding s layout ((UnitOp.take size).next q) { d with pending := [] } p ((UnitOp.take size).next q).waiting xs := by
        rw [show ((UnitOp.take size).next q).waiting = rest by simp only [UnitOp.next, hq, List.tail_cons]]
        exact ⟨⟨hw.processor, hw.fit, hw.good, hw.mode, hw.tight, hw.rest⟩, hh.settings, hh.ended, hh.same, hh.order, hh.sounds⟩
      obtain ⟨d', p', xs', g1, g2⟩ := hh2.decodeOne rfl h3
      rw [g1]
      exact ⟨d', p', xs', rfl, g2⟩
  | finish =>
    simp only [UnitOp.call, UnitOp.answer, Decoder.call, Decoder.signalEnd, h.holding.whole.mode, Bool.not_true, Bool.false_and,
      Bool.false_eq_true, ↓reduceIte]
    have hh := h.holding
    have hw := hh.whole
    exact ⟨_, p, xs, rfl, ⟨⟨hw.processor, hw.fit, hw.good, rfl, hw.tight, hw.rest⟩, hh.settings, rfl, hh.same, hh.order, hh.sounds⟩, h.head⟩

private theorem Queued.calls {s : DecoderSettings} {layout : Layout} {q : UnitQueue} {d : Decoder B} {p : Processor B} {xs : List Rendered}
    (h : Queued s layout q d p xs) (os : List UnitOp) (ho : q.Allowed os) :
    ∃ d' p' xs', d.calls (q.calls os) = ((q.answers os).map .ok, d') ∧ Queued s layout (q.after os) d' p' xs' := by
  induction os generalizing q d p xs with
  | nil => exact ⟨d, p, xs, rfl, h⟩
  | cons o os ih =>
    obtain ⟨d1, p1, xs1, h1, h2⟩ := h.call o ho.1
    obtain ⟨d2, p2, xs2, h3, h4⟩ := ih h2 ho.2
    refine ⟨d2, p2, xs2, ?_, h4⟩
    simp only [UnitQueue.calls, UnitQueue.answers, Decoder.calls, h1, h3, List.map_cons]

private theorem Queued.available {s : DecoderSettings} {layout : Layout} {q : UnitQueue} {d : Decoder B} {p : Processor B} {xs : List Rendered}
    (h : Queued s layout q d p xs) : d.isUnitAvailable = !q.waiting.isEmpty := by
  have hh := h.head
  unfold Decoder.isUnitAvailable
  cases hq : q.waiting with
  | nil => rw [hq] at hh; simp only at hh; rw [hh]; rfl
  | cons u rest => rw [hq] at hh; simpa using hh.1

/-- A decoder that was just created. -/
private theorem created_from {s : DecoderSettings} {descriptors : List UInt8} {x : Descriptors} {p0 : Processor B} {pv : Bool}
    (hx : ((parseDescriptors true).run (RBuf.create 1024 descriptors true)).1 = .ok (some x))
    (hk : ((parseDescriptors true).run (RBuf.create 1024 descriptors true)).2.tell = 8 * descriptors.length)
    (hl : descriptors.length ≤ 4194304) (hi : initAll s x = .ok p0) :
    ∃ b, Decoder.createFromDescriptors s pv descriptors = (.ok (), ⟨s, true, b, some p0, [], false, none, descriptors⟩) ∧ b.Fit ∧
      b.src = [] ∧ b.abs.pos = 0 := by
  have hf0 := RBuf.Fit.create pv
  obtain ⟨b, hb, -⟩ := push_refines descriptors (RBuf.create Decoder.kInitialBufferSize [] pv) hf0.wf hf0.cap
    (by simp only [kEntireObuSizeMaxTwoMegabytes, RBuf.create, List.length_nil]; omega)
  obtain ⟨f1, f2, f3⟩ := hf0.push hb
  have hsrc : b.src = descriptors := by rw [f2]; rfl
  have hpos : b.abs.pos = 0 := by rw [f3]; rfl
  obtain ⟨q1, q2, q3, -⟩ := (parseDescriptors true).run_refines (RBuf.create 1024 descriptors true) (RBuf.wf_create _ _ _ (.inl (by decide)))
  rw [RBuf.abs_create] at q1 q3
  have htell : ((parseDescriptors true).run (RBuf.create 1024 descriptors true)).2.abs.pos = 8 * descriptors.length := by
    simp only [RBuf.abs]; omega
  obtain ⟨b', s1, s2, s3, s4⟩ := setUp_ok (d := ⟨s, true, b, none, [], false, none, []⟩) (k := descriptors.length) f1 hsrc hpos
    (by rw [← q1]; exact hx) (by rw [← q3]; exact htell) hi
  refine ⟨b', ?_, s2, by rw [s3, List.drop_length], s4⟩
  unfold Decoder.createFromDescriptors
  rw [hb]
  simp only [s1, List.take_length]

/-! ### Theorems -/

/-- **C49 (a decoder that was created from descriptors is a queue).** A sequence is written; a decoder is created from the bytes of its
descriptors, for any settings for which the sequence can be rendered, also with channels in the order for Android.  Then temporal units are
given to `Decode`, any number of them at a time, with calls of `GetOutputTemporalUnit` and `SignalEndOfDecoding` in between in any way.
All calls return OK; the samples that are given out are those of the unit that has waited longest, each unit once and in order, and
`IsTemporalUnitAvailable` says whether there is one. -/
theorem C49_the_decoder_is_a_queue (B : Backend) (s : DecoderSettings) (d : SequenceObus) (x : Descriptors) (n : UInt32)
    (us : List TemporalUnitView) (delimiters : Bool) (hb : BuiltSequence d) (hs : SameDescriptors d x) (hn : n ≠ 0) (hp : Playable x n)
    (hu : ∀ k (hk : k < us.length), UnitOf x n k us[k]) (g : LebGen) (descriptors : List UInt8) (hd : DescriptorBytes g d descriptors)
    (hl : descriptors.length ≤ 4194304) (p0 : Processor B) (hi : initAll s x = .ok p0) (xs : List Rendered)
    (hr : Renders B p0.renderer (unitsBack x n 0 [] us) xs) (units : List PlayedUnit)
    (hbytes : List.Forall₂ (UnitBytes g delimiters) us (units.map PlayedUnit.bytes))
    (hsamples : List.Forall₂ (Sounding s p0.layout) xs (units.map PlayedUnit.samples)) (pv : Bool) :
    ∃ d0 : Decoder B, Decoder.createFromDescriptors s pv descriptors = (.ok (), d0) ∧ d0.isDescriptorProcessingComplete = true ∧
      ∀ os, UnitQueue.Allowed ⟨[], units, false⟩ os →
        (d0.calls (UnitQueue.calls ⟨[], units, false⟩ os)).1 = (UnitQueue.answers ⟨[], units, false⟩ os).map .ok ∧
        (d0.calls (UnitQueue.calls ⟨[], units, false⟩ os)).2.isUnitAvailable =
          !(UnitQueue.after ⟨[], units, false⟩ os).waiting.isEmpty := by
  obtain ⟨k1, k2, k3⟩ := descriptors_alone hb hs hd (by omega) true
  obtain ⟨b, c1, c2, c3, c4⟩ := created_from (pv := pv) k1 k2 hl hi
  refine ⟨_, c1, rfl, fun os hos => ?_⟩
  have hinit := initAll_processor hi
  obtain ⟨pl, fl⟩ := units_play hn k3 hp hinit hu hbytes
  have hf : ∀ u ∈ us, u.frames ≠ [] := by
    intro u hu2 e
    obtain ⟨k, hk, rfl⟩ := List.getElem_of_mem hu2
    have := (hu k hk).frames
    rw [e] at this
    exact hp.streams (List.nil_perm.mp this)
  obtain ⟨rs, hrs⟩ := renders_all hr (unitsBack_frames hf)
  have hrest : b.abs.rest = [] := by
    simp only [RS.rest, RBuf.abs, c3]
    exact List.drop_nil
  have hq : Queued s p0.layout ⟨[], units, false⟩ ⟨s, true, b, some p0, [], false, none, descriptors⟩ p0 xs := by
    refine ⟨⟨⟨rfl, c2, ?_, rfl, ?_, ?_⟩, rfl, rfl, rfl, .inl rfl, ?_⟩, rfl⟩
    · exact initAll_good hi
    · simp only [c3, List.length_nil]; omega
    · refine ⟨unitsBack x n 0 [] us, rs, ?_, hrs⟩
      simp only [hrest, List.tail_nil, List.map_nil]
      rw [List.map_map] at pl
      exact Rest.start pl (by rw [fl])
    · simp only [List.tail_nil, List.nil_append]
      exact List.forall₂_map_right_iff.mp hsamples
  obtain ⟨d', p', xs', h1, h2⟩ := hq.calls os hos
  rw [h1]
  exact ⟨rfl, h2.available⟩

end Iamf.Props
