import Verif.Props.Reset
/-
  What every decoder satisfies after any history of calls: a lemma for the properties of decoders.
-/
namespace Iamf.Props
open Iamf
variable {B : Backend}

/-- What is kept by rendering, for a relation between a processor and the samples that it rendered last. -/
structure KeptByRendering (P : Processor B → Rendered → Prop) : Prop where
  new : ∀ s x p, ConsistentDescriptors x → initAll s x = .ok p → P p []
  taken : ∀ p x, P p x → P p []
  state : ∀ (p : Processor B) x st, P p x → P ⟨p.context, st, p.renderer, p.mixId, p.layout, p.rate⟩ x
  failed : ∀ (p : Processor B) x u e rs, P p x → Decoder.render p.renderer u = (.error e, rs) →
    P ⟨p.context, p.state, rs, p.mixId, p.layout, p.rate⟩ x
  rendered : ∀ (p : Processor B) x u y rs, P p x → Decoder.render p.renderer u = (.ok y, rs) →
    P ⟨p.context, p.state, rs, p.mixId, p.layout, p.rate⟩ y
  reordered : ∀ (p : Processor B) x y a s, P p x → reorderChannels a s x = .ok y → P p y

/-- The relation holds of the processor and the pending samples. -/
structure Kept (P : Processor B → Rendered → Prop) (d : Decoder B) : Prop where
  fit : d.buffer.Fit
  idle : d.processor = none → d.pending = []
  good : ∀ p, d.processor = some p → P p d.pending

variable {P : Processor B → Rendered → Prop}

private theorem new_processor {s : DecoderSettings} {ex : Bool} {b : RBuf} (hf : b.Fit) {p : Processor B} {bytes : List UInt8} {b' : RBuf}
    (h : (createProcessor s ex).run b = (.ok (some (p, bytes)), b')) : ∃ x, ConsistentDescriptors x ∧ initAll s x = .ok p := by
  obtain ⟨q1, -, q3, -⟩ := (createProcessor (B := B) s ex).run_refines b hf.wf
  rw [h] at q1
  simp only at q1
  have he := parse_ends ex b.abs.src b.abs.pos true hf.pos (by
    simp only [RBuf.abs, bytesBits_length]; have := hf.small; omega)
  unfold createProcessor at q1
  simp only [Rd.runA] at q1
  match hx : (parseDescriptors ex).runA ⟨b.abs.src, b.abs.pos, true⟩ with
  | (.error e, s1) =>
    rw [hx] at q1
    simp only at q1
    split at q1 <;> simp [Rd.runA] at q1
  | (.ok none, s1) =>
    rw [hx] at q1
    simp only at q1
    cases ex <;> simp [Rd.runA] at q1
  | (.ok (some x), s1) =>
    rw [hx] at q1 he
    simp only at q1
    have hc := (he.done x rfl).1 ⟨by simp [Descriptors.empty], by simp [Descriptors.empty], by simp [Descriptors.empty],
      by simp [Descriptors.empty], by simp [Descriptors.empty]⟩
    match hi : initAll (B := B) s x with
    | .error e =>
      rw [hi] at q1
      simp only at q1
      split at q1 <;> simp [Rd.runA] at q1
    | .ok p' =>
      rw [hi] at q1
      simp only [Rd.runA] at q1
      refine ⟨x, hc, ?_⟩
      rw [hi]
      split at q1
      · simp only [Rd.runA_bind] at q1
        split at q1
        · simp only [Rd.runA] at q1
          cases q1; rfl
        · cases q1
      · cases q1

theorem Kept.setUp (hP : KeptByRendering P) {d : Decoder B} (h : Kept P d) (hp : d.pending = []) : Kept P d.setUp.2 := by
  have hfit := h.fit.run (createProcessor (B := B) d.settings d.fromDescriptors)
  unfold Decoder.setUp
  match hr : (createProcessor (B := B) d.settings d.fromDescriptors).run d.buffer with
  | (.error e, b) => rw [hr] at hfit; exact ⟨hfit, h.idle, h.good⟩
  | (.ok none, b) => rw [hr] at hfit; exact ⟨hfit, h.idle, h.good⟩
  | (.ok (some (p, bytes)), b) =>
    rw [hr] at hfit
    simp only at hfit ⊢
    obtain ⟨b', hb1, hb2, -⟩ := hfit.flush
    rw [hb1]
    obtain ⟨x, hx, hi⟩ := new_processor h.fit hr
    refine ⟨hb2, fun hn => (by cases hn), fun q hq => ?_⟩
    cases hq
    simp only [hp]
    exact hP.new _ _ _ hx hi

theorem Kept.decodeOne (hP : KeptByRendering P) {d : Decoder B} (h : Kept P d) (eos : Bool) : Kept P (Decoder.decodeOne eos d).2 := by
  unfold Decoder.decodeOne
  match hp : d.processor with
  | none => exact h
  | some p =>
    have hg := h.good p hp
    have hfit := h.fit.run (processUnit p.context eos p.state)
    simp only
    match hr : (processUnit p.context eos p.state).run d.buffer with
    | (.error e, b) => rw [hr] at hfit; exact ⟨hfit, fun hn => (by cases hn), fun q hq => by cases hq; exact hg⟩
    | (.ok (.error e, st), b) =>
      rw [hr] at hfit
      exact ⟨hfit, fun hn => (by cases hn), fun q hq => by cases hq; exact hP.state _ _ _ hg⟩
    | (.ok (.ok (none, c), st), b) =>
      rw [hr] at hfit
      simp only at hfit ⊢
      obtain ⟨b', hb1, hb2, -⟩ := hfit.flush
      rw [hb1]
      exact ⟨hb2, fun hn => (by cases hn), fun q hq => by cases hq; exact hP.state _ _ _ hg⟩
    | (.ok (.ok (some u, c), st), b) =>
      rw [hr] at hfit
      simp only at hfit ⊢
      match hu : Decoder.render p.renderer u with
      | (.error e, rs) =>
        exact ⟨hfit, fun hn => (by cases hn), fun q hq => by cases hq; exact hP.state _ _ _ (hP.failed _ _ _ _ _ hg hu)⟩
      | (.ok y, rs) =>
        have hy := hP.state _ _ st (hP.rendered _ _ _ _ _ hg hu)
        simp only
        match ho : d.reordered y with
        | .error e => exact ⟨hfit, fun hn => (by cases hn), fun q hq => by cases hq; exact hy⟩
        | .ok z =>
          obtain ⟨b', hb1, hb2, -⟩ := hfit.flush
          simp only
          rw [hb1]
          refine ⟨hb2, fun hn => (by cases hn), fun q hq => ?_⟩
          cases hq
          unfold Decoder.reordered at ho
          split at ho
          · cases ho; exact hy
          · split at ho
            · next hq => cases ho; exact hP.reordered _ _ _ _ _ hy hq
            · cases ho

theorem Kept.call (hP : KeptByRendering P) {d : Decoder B} (h : Kept P d) (c : DecoderCall) : Kept P (d.call c).2 := by
  cases c with
  | decode bytes =>
    have : (d.call (.decode bytes)).2 = (d.decode bytes).2 := by
      simp only [Decoder.call]; split <;> simp_all
    rw [this]
    unfold Decoder.decode
    split
    · exact h
    · match hb : d.buffer.pushBytes bytes with
      | (.error e, b) =>
        have : b = d.buffer := by
          unfold RBuf.pushBytes at hb
          split at hb
          · cases hb; rfl
          · cases hb
        subst this
        exact h
      | (.ok (), b) =>
        have hf := (h.fit.push hb).1
        match hp : d.processor with
        | none =>
          have hs := Kept.setUp hP (d := { d with buffer := b }) ⟨hf, h.idle, h.good⟩ (h.idle hp)
          simp only
          rw [hp] at hs
          split
          · next heq => rw [heq] at hs; exact hs
          · next heq => rw [heq] at hs; exact hs
        | some p =>
          simp only
          have hk : ∀ (ro : Option UInt8), Kept P { d with buffer := b, processor := some p, reorderer := ro } := by
            intro ro
            exact ⟨hf, fun hn => (by cases hn), fun q hq => by cases hq; exact h.good p hp⟩
          split
          · exact Kept.decodeOne hP (hk _) _
          · exact hk _
  | getOutput size =>
    simp only [Decoder.call, Decoder.getOutput]
    split
    · exact h
    · have fin : ∀ (d1 : Decoder B) (e : Bool) (w : Except Err (List UInt8)), Kept P d1 →
          Kept P (match Decoder.decodeOne e d1 with | (.error x, d2) => (Except.error x, d2) | (.ok (), d2) => (w, d2)).2 := by
        intro d1 e w hk
        have hk2 := Kept.decodeOne hP hk e
        match hd : Decoder.decodeOne e d1 with
        | (.error x, d2) => rw [hd] at hk2; exact hk2
        | (.ok (), d2) => rw [hd] at hk2; exact hk2
      cases hw : writeFrameToSpan d.pending d.settings.sampleType size with
      | error e => exact fin d _ _ h
      | ok bytes => exact fin { d with pending := [] } _ _ ⟨h.fit, fun _ => rfl, fun p hp => hP.taken _ _ (h.good p hp)⟩
  | signalEnd =>
    have : (d.call .signalEnd).2 = d.signalEnd.2 := by
      simp only [Decoder.call]; split <;> simp_all
    rw [this]
    unfold Decoder.signalEnd
    simp only
    split
    · exact Kept.decodeOne hP (d := { d with ended := true }) ⟨h.fit, h.idle, h.good⟩ _
    · exact ⟨h.fit, h.idle, h.good⟩

theorem Kept.reset (hP : KeptByRendering P) {d : Decoder B} (h : Kept P d) (pv : Bool) : Kept P (d.reset pv).2 := by
  unfold Decoder.reset
  split
  · exact h
  · have hk : ∀ b : RBuf, b.Fit → Kept P ⟨d.settings, d.fromDescriptors, b, d.processor, [], false, none, d.descriptors⟩ := fun b hb =>
      ⟨hb, fun _ => rfl, fun p hp => hP.taken _ _ (h.good p hp)⟩
    have h0 := RBuf.Fit.create pv
    simp only
    match hb : (RBuf.create Decoder.kInitialBufferSize [] pv).pushBytes d.descriptors with
    | (.error e, b) =>
      have : b = RBuf.create Decoder.kInitialBufferSize [] pv := by
        unfold RBuf.pushBytes at hb
        split at hb
        · cases hb; rfl
        · cases hb
      subst this
      exact hk _ h0
    | (.ok (), b) =>
      have hs := Kept.setUp hP (hk b (h0.push hb).1) rfl
      simp only
      split
      · next heq => rw [heq] at hs; exact hs
      · next heq => rw [heq] at hs; exact hs

theorem Kept.newMix (hP : KeptByRendering P) {d : Decoder B} (h : Kept P d) (pv : Bool) (m : Option UInt32) (l : Option OutputLayout) :
    Kept P (d.resetWithNewMix pv m l).2 := by
  unfold Decoder.resetWithNewMix
  split
  · exact h
  · have hr := Kept.reset hP (d := ⟨asking d.settings m l, d.fromDescriptors, d.buffer, d.processor, d.pending, d.ended, d.reorderer,
      d.descriptors⟩) ⟨h.fit, h.idle, h.good⟩ pv
    split
    · next heq =>
      have : (Decoder.reset pv (⟨asking d.settings m l, d.fromDescriptors, d.buffer, d.processor, d.pending, d.ended, d.reorderer,
        d.descriptors⟩ : Decoder B)) = _ := heq
      rw [this] at hr; exact hr
    · next heq =>
      have : (Decoder.reset pv (⟨asking d.settings m l, d.fromDescriptors, d.buffer, d.processor, d.pending, d.ended, d.reorderer,
        d.descriptors⟩ : Decoder B)) = _ := heq
      rw [this] at hr; exact hr

/-- A decoder right after its creation, for a stream or from descriptors. -/
def NewDecoder (s : DecoderSettings) (d : Decoder B) : Prop :=
  (∃ pv, d = Decoder.create s pv) ∨ ∃ pv bytes, Decoder.createFromDescriptors s pv bytes = (.ok (), d)

theorem Kept.new (hP : KeptByRendering P) {s : DecoderSettings} {d : Decoder B} (h : NewDecoder s d) : Kept P d := by
  rcases h with ⟨pv, rfl⟩ | ⟨pv, bytes, h⟩
  · exact ⟨RBuf.Fit.create pv, fun _ => rfl, fun p hp => by cases hp⟩
  · unfold Decoder.createFromDescriptors at h
    split at h
    · cases h
    · next b hb =>
      have hs := Kept.setUp hP (d := ⟨s, true, b, none, [], false, none, []⟩)
        ⟨((RBuf.Fit.create pv).push hb).1, fun _ => rfl, fun p hp => (by cases hp)⟩ rfl
      split at h
      · cases h
      · next heq => rw [heq] at hs; cases h; exact hs

/-- It holds after all histories of calls. -/
theorem Kept.after (hP : KeptByRendering P) {s : DecoderSettings} {d : Decoder B} (h : NewDecoder s d) (cs : List AnyCall) :
    Kept P (afterCalls d cs) := by
  have h0 := Kept.new hP h
  clear h
  unfold afterCalls
  induction cs generalizing d with
  | nil => exact h0
  | cons c cs ih =>
    refine ih ?_
    cases c with
    | call c => exact Kept.call hP h0 c
    | reset pv => exact Kept.reset hP h0 pv
    | newMix pv m l => exact Kept.newMix hP h0 pv m l

/-! ### The sample type stays -/

private theorem type_setUp (d : Decoder B) : d.setUp.2.settings = d.settings := by
  unfold Decoder.setUp
  split
  · rfl
  · rfl
  · split <;> rfl

private theorem type_decodeOne (eos : Bool) (d : Decoder B) : (Decoder.decodeOne eos d).2.settings = d.settings := by
  unfold Decoder.decodeOne
  split
  · rfl
  · split
    · rfl
    · rfl
    · rfl
    · split
      · rfl
      · split <;> rfl

private theorem type_call (d : Decoder B) (c : DecoderCall) : (d.call c).2.settings = d.settings := by
  cases c with
  | decode bytes =>
    have : (d.call (.decode bytes)).2 = (d.decode bytes).2 := by
      simp only [Decoder.call]; split <;> simp_all
    rw [this]
    unfold Decoder.decode
    split
    · rfl
    · split
      · rfl
      · next b _ =>
        split
        · have hs := type_setUp { d with buffer := b }
          split
          · next heq => rw [heq] at hs; exact hs
          · next heq => rw [heq] at hs; exact hs
        · simp only
          split
          · rw [type_decodeOne]
          · rfl
  | getOutput size =>
    simp only [Decoder.call, Decoder.getOutput]
    split
    · rfl
    · have fin : ∀ (d1 : Decoder B) (e : Bool) (w : Except Err (List UInt8)), d1.settings = d.settings →
          (match Decoder.decodeOne e d1 with | (.error x, d2) => (Except.error x, d2) | (.ok (), d2) => (w, d2)).2.settings =
            d.settings := by
        intro d1 e w hk
        have hk2 := type_decodeOne e d1
        match hd : Decoder.decodeOne e d1 with
        | (.error x, d2) => rw [hd] at hk2; exact hk2.trans hk
        | (.ok (), d2) => rw [hd] at hk2; exact hk2.trans hk
      cases hw : writeFrameToSpan d.pending d.settings.sampleType size with
      | error e => exact fin d _ _ rfl
      | ok bytes => exact fin { d with pending := [] } _ _ rfl
  | signalEnd =>
    have : (d.call .signalEnd).2 = d.signalEnd.2 := by
      simp only [Decoder.call]; split <;> simp_all
    rw [this]
    unfold Decoder.signalEnd
    simp only
    split
    · rw [type_decodeOne]
    · rfl

private theorem type_reset (pv : Bool) (d : Decoder B) : (d.reset pv).2.settings = d.settings := by
  unfold Decoder.reset
  split
  · rfl
  · simp only
    split
    · rfl
    · next b _ =>
      have hs := type_setUp (⟨d.settings, d.fromDescriptors, b, d.processor, [], false, none, d.descriptors⟩ : Decoder B)
      split
      · next heq => rw [heq] at hs; exact hs
      · next heq => rw [heq] at hs; exact hs

/-- Only `ResetWithNewMix` changes the settings. -/
theorem settings_after {s : DecoderSettings} {d : Decoder B} (h : NewDecoder s d) (cs : List AnyCall) :
    (afterCalls d cs).settings.sampleType = s.sampleType ∧ (afterCalls d cs).settings.android = s.android := by
  have h0 : d.settings.sampleType = s.sampleType ∧ d.settings.android = s.android := by
    rcases h with ⟨pv, rfl⟩ | ⟨pv, bytes, h⟩
    · exact ⟨rfl, rfl⟩
    · unfold Decoder.createFromDescriptors at h
      split at h
      · cases h
      · next b hb =>
        have hs := type_setUp (⟨s, true, b, none, [], false, none, []⟩ : Decoder B)
        split at h
        · cases h
        · next heq => rw [heq] at hs; cases h; rw [hs]; exact ⟨rfl, rfl⟩
  clear h
  unfold afterCalls
  induction cs generalizing d with
  | nil => exact h0
  | cons c cs ih =>
    refine ih ?_
    cases c with
    | call c => simp only [AnyCall.run, type_call]; exact h0
    | reset pv => simp only [AnyCall.run, type_reset]; exact h0
    | newMix pv m l =>
      simp only [AnyCall.run]
      unfold Decoder.resetWithNewMix
      split
      · exact h0
      · have hr := type_reset pv (⟨asking d.settings m l, d.fromDescriptors, d.buffer, d.processor, d.pending, d.ended, d.reorderer,
          d.descriptors⟩ : Decoder B)
        have h1 : (asking d.settings m l).sampleType = s.sampleType ∧ (asking d.settings m l).android = s.android := h0
        split
        · next d' heq =>
          have : (Decoder.reset pv (⟨asking d.settings m l, d.fromDescriptors, d.buffer, d.processor, d.pending, d.ended, d.reorderer,
            d.descriptors⟩ : Decoder B)) = _ := heq
          rw [this] at hr
          rw [show d'.settings = asking d.settings m l from hr]
          exact h1
        · next d' heq =>
          have : (Decoder.reset pv (⟨asking d.settings m l, d.fromDescriptors, d.buffer, d.processor, d.pending, d.ended, d.reorderer,
            d.descriptors⟩ : Decoder B)) = _ := heq
          rw [this] at hr
          show d'.settings.sampleType = _ ∧ _
          rw [show d'.settings = asking d.settings m l from hr]
          exact h1

end Iamf.Props
