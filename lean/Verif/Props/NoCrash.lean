import Verif.Props.SafeInit
import Verif.Props.History
import Verif.Props.Output
/-
  C52: whatever bytes the decoder is given, and in whatever order its methods are called, each call ends and reports a status.
-/
namespace Iamf.Props
open Iamf

/-! ## Specification -/

/-- The call returned: it succeeded or it reported a status.  It did not abort, it did not do anything undefined, and it ended. -/
def Returned {α : Type} (x : Except Err α) : Prop := ∀ e, x = .error e → e ≠ .abort ∧ e ≠ .ub ∧ e ≠ .diverge

/-- All calls of a decoder return. -/
structure AllReturn {B : Backend} (d : Decoder B) : Prop where
  decode : ∀ bytes, Returned (d.decode bytes).1
  getOutput : ∀ size, Returned (d.getOutput size).1
  signalEnd : Returned d.signalEnd.1
  reset : ∀ pv, Returned (d.reset pv).1
  newMix : ∀ pv mixId layout, Returned (d.resetWithNewMix pv mixId layout).1
  outputMix : Returned d.getOutputMix
  channels : Returned d.getNumberOfOutputChannels
  sampleRate : Returned d.getSampleRate
  frameSize : Returned d.getFrameSize

/-- Settings as the API can express them: known profiles and a layout of the enumeration; the channels are not reordered. -/
structure PlainSettings (s : DecoderSettings) : Prop where
  profiles : ∀ p ∈ s.profiles, p ≤ 5
  layout : ∃ o : Option OutputLayout, s.layout = o.map OutputLayout.toLayout
  order : s.android = false

/-! ## Proof -/

private def Mild {α : Type} (x : Except Err α) : Prop := ∀ e, x = .error e → e.fatal = false

private theorem Mild.returned {α : Type} {x : Except Err α} (h : Mild x) : Returned x := fun e he => by
  have := h e he
  refine ⟨?_, ?_, ?_⟩ <;> (rintro rfl; cases this)

variable {M : GainMath Rat} {E : RenderEnv} {C : Codecs} {t : TrimmingSettings}

private structure SafeDecoder (d : Decoder (standardBackend M E C t)) : Prop where
  fit : d.buffer.Fit
  plain : PlainSettings d.settings
  safe : ∀ p, d.processor = some p → SafeContext p.context ∧ SafeState p.state ∧ SafeMix p.renderer.mix ∧ HasSoundSystem p.layout

private theorem plain_layout {s : DecoderSettings} (h : PlainSettings s) : ∀ l, s.layout = some l → HasSoundSystem l := by
  intro l hl
  obtain ⟨o, ho⟩ := h.layout
  rw [ho] at hl
  cases o with
  | none => cases hl
  | some o =>
    cases hl
    cases o with
    | soundSystem s => exact fun _ => ⟨_, _, rfl⟩
    | binaural => intro h2; exact absurd h2 (by decide)

private theorem setUp_safe (hE : GoodEnv E) (hC : MildCodecs C) {d : Decoder (standardBackend M E C t)} (h : SafeDecoder d) :
    Mild d.setUp.1 ∧ SafeDecoder d.setUp.2 := by
  have hfit := h.fit.run (createProcessor (B := standardBackend M E C t) d.settings d.fromDescriptors)
  obtain ⟨q1, -, q3, -⟩ := (createProcessor (B := standardBackend M E C t) d.settings d.fromDescriptors).run_refines d.buffer h.fit.wf
  have key : (∀ e, ((createProcessor (B := standardBackend M E C t) d.settings d.fromDescriptors).run d.buffer).1 = .error e → e.fatal = false) ∧
      ∀ p bytes, ((createProcessor (B := standardBackend M E C t) d.settings d.fromDescriptors).run d.buffer).1 = .ok (some (p, bytes)) →
        SafeContext p.context ∧ SafeState p.state ∧ SafeMix p.renderer.mix ∧ HasSoundSystem p.layout := by
    rw [q1]
    have he := parse_ends d.fromDescriptors d.buffer.abs.src d.buffer.abs.pos true h.fit.pos (by
      simp only [RBuf.abs, bytesBits_length]; have := h.fit.small; omega)
    unfold createProcessor
    simp only [Rd.runA]
    match hx : (parseDescriptors d.fromDescriptors).runA ⟨d.buffer.abs.src, d.buffer.abs.pos, true⟩ with
    | (.error e, s1) =>
      have hst := he.status e (by rw [hx])
      simp only [hst]
      exact ⟨fun e' he' => (by simp [Rd.runA] at he'; rw [← he']; rfl), fun p bytes hp => (by simp [Rd.runA] at hp)⟩
    | (.ok none, s1) =>
      simp only
      cases d.fromDescriptors
      · exact ⟨fun e' he' => (by simp [Rd.runA] at he'), fun p bytes hp => (by simp [Rd.runA] at hp)⟩
      · exact ⟨fun e' he' => (by simp [Rd.runA] at he'; rw [← he']; rfl), fun p bytes hp => (by simp [Rd.runA] at hp)⟩
    | (.ok (some x), s1) =>
      have hr : ReadDescriptors x := parsed_descriptors (by rw [hx])
      have hi := initAll_safe (M := M) hE hC t h.plain.profiles (plain_layout h.plain) hr
      simp only
      match hy : initAll (B := standardBackend M E C t) d.settings x with
      | .error e =>
        rw [hy] at hi
        have hi : e.fatal = false := hi
        simp only [hi]
        exact ⟨fun e' he' => (by simp [Rd.runA] at he'; rw [← he']; rfl), fun p bytes hp => (by simp [Rd.runA] at hp)⟩
      | .ok p =>
        rw [hy] at hi
        simp only
        have hsf : Sf (.tell fun fin => .seek (d.buffer.abs.pos : Int) ((rBytes ((fin - (d.buffer.abs.pos : Int)) / 8).toNat).bind
            fun bytes => .ret (some (p, bytes)))) fun r => ∀ q bytes, r = some (q, bytes) → q = p :=
          Sf.tell fun fin => Sf.seek (Sf.bind (Q := fun _ => True) (Sf.any (Sf.bytes _)) fun bytes _ => Sf.ret fun q b hq => by cases hq; rfl)
        have := hsf s1
        refine ⟨fun e he => ?_, fun q bytes hq => ?_⟩
        · rw [he] at this; exact this
        · rw [hq] at this
          have := this q bytes rfl
          subst this
          exact hi
  obtain ⟨k1, k2⟩ := key
  unfold Decoder.setUp
  match hr : (createProcessor (B := standardBackend M E C t) d.settings d.fromDescriptors).run d.buffer with
  | (.error e, b) =>
    rw [hr] at hfit k1
    exact ⟨fun e' he' => by cases he'; exact k1 _ rfl, hfit, h.plain, h.safe⟩
  | (.ok none, b) => rw [hr] at hfit; exact ⟨fun e' he' => (by cases he'), hfit, h.plain, h.safe⟩
  | (.ok (some (p, bytes)), b) =>
    rw [hr] at hfit k2
    simp only at hfit ⊢
    obtain ⟨b', hb1, hb2, -⟩ := hfit.flush
    rw [hb1]
    exact ⟨fun e' he' => (by cases he'), hb2, h.plain, fun q hq => by cases hq; exact k2 p bytes rfl⟩

private theorem render_safe (hC : MildCodecs C) {st : (standardBackend M E C t).State} (h : SafeMix st.mix) {u : OutputUnit} (hu : SafeUnit u) :
    Mild (Decoder.render st u).1 ∧ SafeMix (Decoder.render st u).2.mix := by
  unfold Decoder.render
  split
  · exact ⟨fun e he => (by cases he), h⟩
  · exact renderUnit_safe hC st h u hu

private theorem one_safe (hC : MildCodecs C) {d : Decoder (standardBackend M E C t)} (h : SafeDecoder d) (eos : Bool) :
    Mild (Decoder.decodeOne eos d).1 ∧ SafeDecoder (Decoder.decodeOne eos d).2 := by
  unfold Decoder.decodeOne
  match hp : d.processor with
  | none => exact ⟨fun e he => (by cases he; rfl), h⟩
  | some p =>
    obtain ⟨h1, h2, h3, h4⟩ := h.safe p hp
    obtain ⟨r, st, b, hr, hb, hst, hmild, hunit⟩ := processUnit_safe h1 eos h2 h.fit
    simp only
    rw [hr]
    have mk : ∀ (b : RBuf) (rs : (standardBackend M E C t).State) (y : Rendered), b.Fit → SafeMix rs.mix →
        SafeDecoder { d with buffer := b, processor := some { p with state := st, renderer := rs }, pending := y } :=
      fun b rs y hb hrs => ⟨hb, h.plain, fun q hq => by cases hq; exact ⟨h1, hst, hrs, h4⟩⟩
    match r, hmild, hunit with
    | .error e, hmild, _ => exact ⟨fun e' he' => by cases he'; exact hmild e rfl, mk b p.renderer d.pending hb h3⟩
    | .ok (none, c), _, _ =>
      simp only
      obtain ⟨b', hb1, hb2, -⟩ := hb.flush
      rw [hb1]
      exact ⟨fun e' he' => (by cases he'), mk b' p.renderer d.pending hb2 h3⟩
    | .ok (some u, c), _, hunit =>
      simp only
      obtain ⟨k1, k2⟩ := render_safe hC h3 (hunit u c rfl)
      match hu : Decoder.render p.renderer u with
      | (.error e, rs) =>
        rw [hu] at k1 k2
        exact ⟨fun e' he' => by cases he'; exact k1 e rfl, mk b rs d.pending hb k2⟩
      | (.ok y, rs) =>
        rw [hu] at k2
        simp only
        rw [reordered_id h.plain.order y]
        simp only
        obtain ⟨b', hb1, hb2, -⟩ := hb.flush
        rw [hb1]
        exact ⟨fun e' he' => (by cases he'), mk b' rs y hb2 k2⟩

private theorem push_mild {b b' : RBuf} {bytes : List UInt8} {e : Err} (h : b.pushBytes bytes = (.error e, b')) : e.fatal = false ∧ b' = b := by
  unfold RBuf.pushBytes at h
  split at h
  · cases h; exact ⟨rfl, rfl⟩
  · cases h

private theorem decode_safe (hE : GoodEnv E) (hC : MildCodecs C) {d : Decoder (standardBackend M E C t)} (h : SafeDecoder d) (bytes : List UInt8) :
    Mild (d.decode bytes).1 ∧ SafeDecoder (d.decode bytes).2 := by
  unfold Decoder.decode
  split
  · exact ⟨fun e he => (by cases he; rfl), h⟩
  · match hb : d.buffer.pushBytes bytes with
    | (.error e, b) =>
      obtain ⟨k1, k2⟩ := push_mild hb
      subst k2
      exact ⟨fun e' he' => by cases he'; exact k1, h.fit, h.plain, h.safe⟩
    | (.ok (), b) =>
      have hf := (h.fit.push hb).1
      match hp : d.processor with
      | none =>
        have hs := setUp_safe hE hC (d := { d with buffer := b }) ⟨hf, h.plain, h.safe⟩
        simp only
        rw [hp] at hs
        split
        · next heq => rw [heq] at hs; exact ⟨fun e' he' => by cases he'; exact hs.1 _ rfl, hs.2⟩
        · next heq => rw [heq] at hs; exact ⟨fun e' he' => (by cases he'), hs.2⟩
      | some p =>
        simp only
        have hk : ∀ (ro : Option UInt8), SafeDecoder { d with buffer := b, processor := some p, reorderer := ro } :=
          fun ro => ⟨hf, h.plain, fun q hq => by cases hq; exact h.safe p hp⟩
        split
        · exact one_safe hC (hk _) _
        · exact ⟨fun e' he' => (by cases he'), hk _⟩

private theorem tick_mild {α : Type} (f : α → Int32) (k : UInt8) (be : Bool) (t : Nat) (cs : List (List α)) (h : ∀ c ∈ cs, t < c.length) :
    Mild (writeTick (fun x => .ok (f x)) k be t cs) := by
  induction cs with
  | nil => exact fun e he => (by cases he)
  | cons c cs ih =>
    have ih := ih fun c hc => h c (List.mem_cons_of_mem _ hc)
    have hlt := h c List.mem_cons_self
    intro e he
    simp only [writeTick, List.getElem?_eq_getElem hlt, bind, Except.bind] at he
    cases hp : writePcmSample (f c[t]).toUInt32 k be with
    | error x =>
      rw [hp] at he
      cases he
      unfold writePcmSample at hp
      split at hp <;> cases hp
      rfl
    | ok bytes =>
      rw [hp] at he
      cases hr : writeTick (fun x => Except.ok (f x)) k be t cs with
      | error x => simp only [hr] at he; cases he; exact ih _ hr
      | ok rest => simp only [hr] at he; cases he

private theorem ticks_mild {α : Type} (f : α → Int32) (k : UInt8) (be : Bool) (cs : List (List α)) (n : Nat) : ∀ t, (∀ c ∈ cs, t + n ≤ c.length) →
    Mild (writeTicks (fun x => .ok (f x)) k be cs t n) := by
  induction n with
  | zero => exact fun t _ e he => (by cases he)
  | succ n ih =>
    intro t h e he
    have h1 := tick_mild f k be t cs fun c hc => by have := h c hc; omega
    have h2 := ih (t + 1) fun c hc => by have := h c hc; omega
    simp only [writeTicks, bind, Except.bind] at he
    cases hp : writeTick (fun x => Except.ok (f x)) k be t cs with
    | error x => rw [hp] at he; cases he; exact h1 _ hp
    | ok bytes =>
      rw [hp] at he
      cases hr : writeTicks (fun x => Except.ok (f x)) k be cs (t + 1) n with
      | error x => simp only [hr] at he; cases he; exact h2 _ hr
      | ok rest => simp only [hr] at he; cases he

private theorem frame_mild (x : Rendered) (k size : Nat) : Mild (writeFrameToSpan x k size) := by
  intro e he
  simp only [writeFrameToSpan, bind, Except.bind] at he
  cases hv : validateWriteFrame x k size with
  | error y =>
    rw [hv] at he
    cases he
    unfold validateWriteFrame at hv
    repeat' split at hv
    all_goals (cases hv; try rfl)
  | ok u =>
    rw [hv] at he
    refine ticks_mild normalizedToInt32 _ _ _ _ 0 (fun c hc => ?_) e he
    unfold validateWriteFrame at hv
    split at hv
    · cases hc
    · next c0 cs =>
      split at hv
      · cases hv
      · split at hv
        · cases hv
        · next hall =>
          have hall : ((c0 :: cs).all fun d => d.length == c0.length) = true := by simpa using hall
          have := List.all_eq_true.mp hall c hc
          have := eq_of_beq this
          show 0 + c0.length ≤ c.length
          omega

private theorem output_safe (hC : MildCodecs C) {d : Decoder (standardBackend M E C t)} (h : SafeDecoder d) (size : Nat) :
    Mild (d.getOutput size).1 ∧ SafeDecoder (d.getOutput size).2 := by
  unfold Decoder.getOutput
  split
  · exact ⟨fun e he => (by cases he), h⟩
  · have hm := frame_mild d.pending d.settings.sampleType size
    dsimp only
    cases hw : writeFrameToSpan d.pending d.settings.sampleType size with
    | error e =>
      rw [hw] at hm
      dsimp only
      have hk2 := one_safe hC h (d.fromDescriptors || d.ended)
      generalize Decoder.decodeOne (d.fromDescriptors || d.ended) d = w at hk2
      rcases w with ⟨_ | _, _⟩
      · exact ⟨fun e' he' => by cases he'; exact hk2.1 _ rfl, hk2.2⟩
      · exact ⟨hm, hk2.2⟩
    | ok bytes =>
      dsimp only
      have hk2 := one_safe hC (d := { d with pending := [] }) ⟨h.fit, h.plain, h.safe⟩ (d.fromDescriptors || d.ended)
      generalize Decoder.decodeOne (d.fromDescriptors || d.ended) _ = w at hk2
      rcases w with ⟨_ | _, _⟩
      · exact ⟨fun e' he' => by cases he'; exact hk2.1 _ rfl, hk2.2⟩
      · exact ⟨fun e he => (by cases he), hk2.2⟩

private theorem end_safe (hC : MildCodecs C) {d : Decoder (standardBackend M E C t)} (h : SafeDecoder d) :
    Mild d.signalEnd.1 ∧ SafeDecoder d.signalEnd.2 := by
  unfold Decoder.signalEnd
  simp only
  split
  · exact one_safe hC (d := { d with ended := true }) ⟨h.fit, h.plain, h.safe⟩ _
  · exact ⟨fun e he => (by cases he), h.fit, h.plain, h.safe⟩

private theorem reset_safe (hE : GoodEnv E) (hC : MildCodecs C) {d : Decoder (standardBackend M E C t)} (h : SafeDecoder d) (pv : Bool) :
    Mild (d.reset pv).1 ∧ SafeDecoder (d.reset pv).2 := by
  unfold Decoder.reset
  split
  · exact ⟨fun e he => (by cases he; rfl), h⟩
  · have hk : ∀ b : RBuf, b.Fit → SafeDecoder (⟨d.settings, d.fromDescriptors, b, d.processor, [], false, none, d.descriptors⟩ :
        Decoder (standardBackend M E C t)) := fun b hb => ⟨hb, h.plain, h.safe⟩
    have h0 := RBuf.Fit.create pv
    simp only
    match hb : (RBuf.create Decoder.kInitialBufferSize [] pv).pushBytes d.descriptors with
    | (.error e, b) =>
      obtain ⟨k1, k2⟩ := push_mild hb
      subst k2
      exact ⟨fun e' he' => by cases he'; exact k1, hk _ h0⟩
    | (.ok (), b) =>
      have hs := setUp_safe hE hC (hk b (h0.push hb).1)
      simp only
      split
      · next heq => rw [heq] at hs; exact ⟨fun e' he' => by cases he'; exact hs.1 _ rfl, hs.2⟩
      · next heq => rw [heq] at hs; exact ⟨fun e' he' => (by cases he'), hs.2⟩

private theorem mix_mild (d : Decoder (standardBackend M E C t)) : Mild d.getOutputMix := by
  intro e he
  unfold Decoder.getOutputMix at he
  split at he
  · cases he; rfl
  · next p _ =>
    cases hx : p.layout.toOutput with
    | ok l => rw [hx] at he; cases he
    | error x =>
      rw [hx] at he
      cases he
      unfold Layout.toOutput at hx
      split at hx
      · split at hx
        · cases hx
        · cases hx; rfl
      · split at hx
        · cases hx; rfl
        · split at hx
          · cases hx
          · cases hx; rfl

private theorem newMix_safe (hE : GoodEnv E) (hC : MildCodecs C) {d : Decoder (standardBackend M E C t)} (h : SafeDecoder d) (pv : Bool)
    (m : Option UInt32) (l : Option OutputLayout) : Mild (d.resetWithNewMix pv m l).1 ∧ SafeDecoder (d.resetWithNewMix pv m l).2 := by
  unfold Decoder.resetWithNewMix
  split
  · exact ⟨fun e he => (by cases he; rfl), h⟩
  · have hr := reset_safe hE hC (d := (⟨asking d.settings m l, d.fromDescriptors, d.buffer, d.processor, d.pending, d.ended, d.reorderer,
      d.descriptors⟩ : Decoder (standardBackend M E C t))) ⟨h.fit, ⟨h.plain.profiles, ⟨l, rfl⟩, h.plain.order⟩, h.safe⟩ pv
    split
    · next heq =>
      have : (Decoder.reset pv (⟨asking d.settings m l, d.fromDescriptors, d.buffer, d.processor, d.pending, d.ended, d.reorderer,
        d.descriptors⟩ : Decoder (standardBackend M E C t))) = _ := heq
      rw [this] at hr; exact ⟨fun e' he' => by cases he'; exact hr.1 _ rfl, hr.2⟩
    · next heq =>
      have : (Decoder.reset pv (⟨asking d.settings m l, d.fromDescriptors, d.buffer, d.processor, d.pending, d.ended, d.reorderer,
        d.descriptors⟩ : Decoder (standardBackend M E C t))) = _ := heq
      rw [this] at hr; exact ⟨mix_mild _, hr.2⟩

private theorem created_safe (hE : GoodEnv E) (hC : MildCodecs C) {s : DecoderSettings} (hs : PlainSettings s) (pv : Bool) (bytes : List UInt8) :
    Mild (Decoder.createFromDescriptors (B := standardBackend M E C t) s pv bytes).1 ∧
      SafeDecoder (Decoder.createFromDescriptors (B := standardBackend M E C t) s pv bytes).2 := by
  have h0 := RBuf.Fit.create pv
  unfold Decoder.createFromDescriptors
  match hb : (RBuf.create Decoder.kInitialBufferSize [] pv).pushBytes bytes with
  | (.error e, b) => exact ⟨fun e' he' => by cases he'; exact (push_mild hb).1, h0, hs, fun p hp => (by cases hp)⟩
  | (.ok (), b) =>
    have hk := setUp_safe hE hC (d := (⟨s, true, b, none, [], false, none, []⟩ : Decoder (standardBackend M E C t)))
      ⟨(h0.push hb).1, hs, fun p hp => (by cases hp)⟩
    simp only
    split
    · next heq => rw [heq] at hk; exact ⟨fun e' he' => by cases he'; exact hk.1 _ rfl, hk.2⟩
    · next heq => rw [heq] at hk; exact ⟨fun e' he' => (by cases he'), hk.2⟩

private theorem new_safe (hE : GoodEnv E) (hC : MildCodecs C) {s : DecoderSettings} (hs : PlainSettings s)
    {d : Decoder (standardBackend M E C t)} (hd : NewDecoder s d) : SafeDecoder d := by
  rcases hd with ⟨pv, rfl⟩ | ⟨pv, bytes, h⟩
  · exact ⟨RBuf.Fit.create pv, hs, fun p hp => (by cases hp)⟩
  · have := (created_safe (M := M) (t := t) hE hC hs pv bytes).2
    rw [h] at this
    exact this

private theorem all_safe (hE : GoodEnv E) (hC : MildCodecs C) (cs : List AnyCall) : ∀ {d : Decoder (standardBackend M E C t)}, SafeDecoder d →
    SafeDecoder (afterCalls d cs) := by
  unfold afterCalls
  induction cs with
  | nil => intro d h; exact h
  | cons c cs ih =>
    intro d h
    refine ih ?_
    cases c with
    | call c =>
      cases c with
      | decode bytes =>
        have : (d.call (.decode bytes)).2 = (d.decode bytes).2 := by
          simp only [Decoder.call]; split <;> simp_all
        show SafeDecoder (d.call (.decode bytes)).2
        rw [this]
        exact (decode_safe hE hC h bytes).2
      | getOutput size => exact (output_safe hC h size).2
      | signalEnd =>
        have : (d.call .signalEnd).2 = d.signalEnd.2 := by
          simp only [Decoder.call]; split <;> simp_all
        show SafeDecoder (d.call .signalEnd).2
        rw [this]
        exact (end_safe hC h).2
    | reset pv => exact (reset_safe hE hC h pv).2
    | newMix pv m l => exact (newMix_safe hE hC h pv m l).2

/-- **C52.** Take any decoder, for a stream or from descriptors, with any settings of the API that leave the order of the channels as it
is, and call its methods in any order with any bytes.  Then every further call of any method ends and reports a status or succeeds:
the decoder does not abort, does not do anything undefined that the model knows of, and does not loop forever.  This is so for all
tables of gains, binaural renderers and other codecs that behave themselves. -/
theorem C52_the_decoder_never_crashes {M : GainMath Rat} {E : RenderEnv} {C : Codecs} {t : TrimmingSettings} (hE : GoodEnv E)
    (hC : MildCodecs C) (s : DecoderSettings) (hs : PlainSettings s) (d : Decoder (standardBackend M E C t)) (hd : NewDecoder s d)
    (cs : List AnyCall) : AllReturn (afterCalls d cs) := by
  have h := all_safe hE hC cs (new_safe hE hC hs hd)
  generalize afterCalls d cs = d' at h
  refine ⟨fun bytes => (decode_safe hE hC h bytes).1.returned, fun size => (output_safe hC h size).1.returned, (end_safe hC h).1.returned,
    fun pv => (reset_safe hE hC h pv).1.returned, fun pv m l => (newMix_safe hE hC h pv m l).1.returned, (mix_mild d').returned, ?_, ?_, ?_⟩
  · refine Mild.returned fun e he => ?_
    unfold Decoder.getNumberOfOutputChannels at he
    split at he
    · cases he; rfl
    · next p hp =>
      have hl := (h.safe p hp).2.2.2
      unfold numChannelsFromLayout at he
      split at he
      · cases he
      · split at he
        · next h2 =>
          obtain ⟨s, r, hs⟩ := hl h2
          rw [hs] at he
          simp only at he
          split at he
          · cases he
          · cases he; rfl
        · cases he; rfl
  · refine Mild.returned fun e he => ?_
    unfold Decoder.getSampleRate at he
    split at he
    · cases he; rfl
    · split at he
      · cases he; rfl
      · cases he
  · refine Mild.returned fun e he => ?_
    unfold Decoder.getFrameSize at he
    split at he
    · cases he; rfl
    · split at he
      · cases he; rfl
      · cases he

/-- **C52 (creation).** Creating a decoder from any bytes ends with a decoder or with a status. -/
theorem C52_creation_never_crashes {M : GainMath Rat} {E : RenderEnv} {C : Codecs} {t : TrimmingSettings} (hE : GoodEnv E)
    (hC : MildCodecs C) (s : DecoderSettings) (hs : PlainSettings s) (pv : Bool) (bytes : List UInt8) :
    Returned (Decoder.createFromDescriptors (B := standardBackend M E C t) s pv bytes).1 :=
  (created_safe hE hC hs pv bytes).1.returned

end Iamf.Props
