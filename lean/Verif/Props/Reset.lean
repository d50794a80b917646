import Verif.Props.Contained
/-
  C50: Reset and ResetWithNewMix.
-/
namespace Iamf.Props
open Iamf

/-! ### Specification -/

/-- A call of a decoder that was created from descriptors.  What an uninitialized member of a new buffer contains (`posValid`) is part of
a call that makes one. -/
inductive AnyCall where
  | call (c : DecoderCall)
  | reset (posValid : Bool)
  | newMix (posValid : Bool) (mixId : Option UInt32) (layout : Option OutputLayout)

/-- The decoder after a call, whatever it returned. -/
def AnyCall.run {B : Backend} (d : Decoder B) : AnyCall → Decoder B
  | .call c => (d.call c).2
  | .reset pv => (d.reset pv).2
  | .newMix pv mixId layout => (d.resetWithNewMix pv mixId layout).2

/-- The decoder after a history of calls, whatever they returned. -/
def afterCalls {B : Backend} (d : Decoder B) (cs : List AnyCall) : Decoder B := cs.foldl AnyCall.run d

/-- Settings that ask for another mix and layout. -/
def asking (s : DecoderSettings) (mixId : Option UInt32) (layout : Option OutputLayout) : DecoderSettings :=
  ⟨s.profiles, mixId, layout.map OutputLayout.toLayout, s.android, s.sampleType⟩

/-- What the user asks for: the mix and layout of the last call of `ResetWithNewMix`. -/
def requested (s : DecoderSettings) : List AnyCall → DecoderSettings
  | [] => s
  | .newMix _ mixId layout :: cs => requested (asking s mixId layout) cs
  | _ :: cs => requested s cs

/-- Bytes that are the descriptors of one sequence and nothing else: the parser of descriptors gets to their end. -/
def OnlyDescriptors (bytes : List UInt8) : Prop :=
  ((parseDescriptors true).run (RBuf.create 1024 bytes true)).2.tell = 8 * bytes.length

/-! ### Proof -/

variable {B : Backend}

private theorem setUp_same {d : Decoder B} {s : DecoderSettings} {b : RBuf} (hs : d.settings = s) (hm : d.fromDescriptors = true)
    (hb : d.buffer = b) (hp : d.pending = []) (he : d.ended = false) (hr : d.reorderer = none) :
    match Decoder.setUp (B := B) ⟨s, true, b, none, [], false, none, []⟩ with
    | (.ok r, d1) => d.setUp = (.ok r, if r then d1 else { d with buffer := d1.buffer })
    | (.error e, d1) => d.setUp = (.error e, { d with buffer := d1.buffer }) := by
  unfold Decoder.setUp
  rw [hs, hm, hb]
  simp only
  match (createProcessor (B := B) s true).run b with
  | (.error e, b1) => rfl
  | (.ok none, b1) => rfl
  | (.ok (some (p, bytes)), b1) =>
    simp only
    match b1.flush with
    | (.error e, b2) => rfl
    | (.ok (), b2) =>
      simp only [↓reduceIte, Prod.mk.injEq, true_and]
      obtain ⟨a1, a2, a3, a4, a5, a6, a7, a8⟩ := d
      simp only at hs hm hb hp he hr
      subst hs hm hb hp he hr
      rfl

private theorem setUp_found {s : DecoderSettings} {b : RBuf} {P : List UInt8} {r : Bool} {d1 : Decoder B} (hf : b.Fit) (hsrc : b.src = P)
    (hpos : b.abs.pos = 0) (h : Decoder.setUp (B := B) ⟨s, true, b, none, [], false, none, []⟩ = (.ok r, d1)) :
    r = true ∧ ∃ x k p b', ((parseDescriptors true).runA ⟨bytesBits P, 0, true⟩).1 = .ok (some x) ∧ initAll s x = .ok p ∧
      ((parseDescriptors true).runA ⟨bytesBits P, 0, true⟩).2.pos = 8 * k ∧ k ≤ P.length ∧
      d1 = ⟨s, true, b', some p, [], false, none, P.take k⟩ := by
  have hP : P.length ≤ 4194304 := by rw [← hsrc]; exact hf.small
  have habs : b.abs = ⟨bytesBits P, 0, b.abs.valid⟩ := by
    have h2 : b.abs.src = bytesBits P := by simp only [RBuf.abs, hsrc]
    rw [← h2, ← hpos]
  obtain ⟨q1, -, q3, -⟩ := (createProcessor (B := B) s true).run_refines b hf.wf
  unfold Decoder.setUp at h
  simp only at h
  match hr : (createProcessor (B := B) s true).run b with
  | (.error e, b1) => rw [hr] at h; simp at h
  | (.ok none, b1) =>
    rw [hr, habs] at q1 q3
    have := createProcessor_runA (B := B) hP (Prod.ext q1.symm q3.symm)
    simp at this
  | (.ok (some (p, bytes)), b1) =>
    rw [hr, habs] at q1 q3
    obtain ⟨x, k, c1, c2, c3, c4, c5, rfl⟩ := createProcessor_runA (B := B) hP (Prod.ext q1.symm q3.symm)
    rw [hr] at h
    simp only at h
    match hfl : b1.flush with
    | (.error e, b2) => rw [hfl] at h; simp at h
    | (.ok (), b2) =>
      rw [hfl] at h
      simp only [Prod.mk.injEq, Except.ok.injEq] at h
      obtain ⟨rfl, rfl⟩ := h
      exact ⟨rfl, x, k, p, b2, c1, c2, c3, c4, rfl⟩

private theorem pushed_new (pv : Bool) (D : List UInt8) :
    match (RBuf.create Decoder.kInitialBufferSize [] pv).pushBytes D with
    | (.ok (), b) => b.Fit ∧ b.src = D ∧ b.abs.pos = 0 ∧ D.length ≤ 4194304
    | (.error _, _) => True := by
  have hf0 := RBuf.Fit.create pv
  match hb : (RBuf.create Decoder.kInitialBufferSize [] pv).pushBytes D with
  | (.error e, b) => trivial
  | (.ok (), b) =>
    obtain ⟨f1, f2, f3⟩ := hf0.push hb
    have hsrc : b.src = D := by rw [f2]; rfl
    exact ⟨f1, hsrc, by rw [f3]; rfl, by rw [← hsrc]; exact f1.small⟩

/-- What a successful creation means. -/
private theorem creation {s : DecoderSettings} {pv : Bool} {D : List UInt8} {d0 : Decoder B}
    (h : Decoder.createFromDescriptors s pv D = (.ok (), d0)) :
    D.length ≤ 4194304 ∧ ∃ x k p b', ((parseDescriptors true).runA ⟨bytesBits D, 0, true⟩).1 = .ok (some x) ∧ initAll s x = .ok p ∧
      ((parseDescriptors true).runA ⟨bytesBits D, 0, true⟩).2.pos = 8 * k ∧ k ≤ D.length ∧
      d0 = ⟨s, true, b', some p, [], false, none, D.take k⟩ := by
  have hpn := pushed_new pv D
  unfold Decoder.createFromDescriptors at h
  match hb : (RBuf.create Decoder.kInitialBufferSize [] pv).pushBytes D with
  | (.error e, b) => rw [hb] at h; simp at h
  | (.ok (), b) =>
    rw [hb] at h hpn
    simp only at h hpn
    match hs : Decoder.setUp (B := B) ⟨s, true, b, none, [], false, none, []⟩ with
    | (.error e, d1) => rw [hs] at h; simp at h
    | (.ok r, d1) =>
      rw [hs] at h
      simp only [Prod.mk.injEq, true_and] at h
      subst h
      exact ⟨hpn.2.2.2, (setUp_found hpn.1 hpn.2.1 hpn.2.2.1 hs).2⟩

/-- `Reset` makes a new decoder, or leaves the old one. -/
private theorem reset_creates {d : Decoder B} (hm : d.fromDescriptors = true) (pv : Bool) :
    match Decoder.createFromDescriptors (B := B) d.settings pv d.descriptors with
    | (.ok (), d1) => d.reset pv = (.ok (), d1)
    | (.error e, _) => ∃ d', d.reset pv = (.error e, d') ∧ d'.settings = d.settings ∧ d'.fromDescriptors = true ∧ d'.processor = d.processor ∧
        d'.descriptors = d.descriptors := by
  have hpn := pushed_new pv d.descriptors
  unfold Decoder.createFromDescriptors Decoder.reset
  rw [hm]
  simp only [Bool.not_true, Bool.false_eq_true, ↓reduceIte]
  match hb : (RBuf.create Decoder.kInitialBufferSize [] pv).pushBytes d.descriptors with
  | (.error e, b) => exact ⟨_, rfl, rfl, rfl, rfl, rfl⟩
  | (.ok (), b) =>
    rw [hb] at hpn
    simp only at hpn ⊢
    have hsm := setUp_same (d := { d with fromDescriptors := true, pending := [], reorderer := none, ended := false, buffer := b })
      (s := d.settings) (b := b) rfl rfl rfl rfl rfl rfl
    match hs : Decoder.setUp (B := B) ⟨d.settings, true, b, none, [], false, none, []⟩ with
    | (.error e, d1) =>
      rw [hs] at hsm
      simp only at hsm ⊢
      rw [hsm]
      exact ⟨_, rfl, rfl, rfl, rfl, rfl⟩
    | (.ok r, d1) =>
      obtain ⟨rfl, -⟩ := setUp_found hpn.1 hpn.2.1 hpn.2.2.1 hs
      rw [hs] at hsm
      simp only [↓reduceIte] at hsm ⊢
      rw [hsm]

private structure Contained (s : DecoderSettings) (D : List UInt8) (d : Decoder B) : Prop where
  settings : d.settings = s
  mode : d.fromDescriptors = true
  processor : d.processor.isSome = true
  descriptors : d.descriptors <+: D

private theorem keeps_decodeOne (eos : Bool) (d : Decoder B) :
    (Decoder.decodeOne eos d).2.settings = d.settings ∧ (Decoder.decodeOne eos d).2.fromDescriptors = d.fromDescriptors ∧
    ((Decoder.decodeOne eos d).2.processor.isSome = d.processor.isSome) ∧ (Decoder.decodeOne eos d).2.descriptors = d.descriptors := by
  unfold Decoder.decodeOne
  match hp : d.processor with
  | none => exact ⟨rfl, rfl, by simp [hp], rfl⟩
  | some p =>
    simp only
    split
    · exact ⟨rfl, rfl, by simp [hp], rfl⟩
    · exact ⟨rfl, rfl, rfl, rfl⟩
    · exact ⟨rfl, rfl, rfl, rfl⟩
    · split
      · exact ⟨rfl, rfl, rfl, rfl⟩
      · split
        · exact ⟨rfl, rfl, rfl, rfl⟩
        · exact ⟨rfl, rfl, rfl, rfl⟩

private theorem mode_setUp (d : Decoder B) : d.setUp.2.fromDescriptors = d.fromDescriptors := by
  unfold Decoder.setUp
  split
  · rfl
  · rfl
  · split <;> rfl

private theorem mode_call (d : Decoder B) (c : DecoderCall) : (d.call c).2.fromDescriptors = d.fromDescriptors := by
  cases c with
  | decode bytes =>
    have : (d.call (.decode bytes)).2 = (d.decode bytes).2 := by
      simp only [Decoder.call]; split <;> simp_all
    rw [this]
    unfold Decoder.decode
    split
    · rfl
    · split
      · rfl
      · next b _ =>
        split
        · have hs := mode_setUp { d with buffer := b }
          split
          · next heq => rw [heq] at hs; exact hs
          · next heq => rw [heq] at hs; exact hs
        · simp only
          split
          · rw [(keeps_decodeOne _ _).2.1]
          · rfl
  | getOutput size =>
    simp only [Decoder.call, Decoder.getOutput]
    split
    · rfl
    · have fin : ∀ (d1 : Decoder B) (e : Bool) (w : Except Err (List UInt8)), d1.fromDescriptors = d.fromDescriptors →
          (match Decoder.decodeOne e d1 with | (.error x, d2) => (Except.error x, d2) | (.ok (), d2) => (w, d2)).2.fromDescriptors =
            d.fromDescriptors := by
        intro d1 e w hk
        have hk2 := (keeps_decodeOne e d1).2.1
        match hd : Decoder.decodeOne e d1 with
        | (.error x, d2) => rw [hd] at hk2; exact hk2.trans hk
        | (.ok (), d2) => rw [hd] at hk2; exact hk2.trans hk
      cases hw : writeFrameToSpan d.pending d.settings.sampleType size with
      | error e => exact fin d _ _ rfl
      | ok bytes => exact fin { d with pending := [] } _ _ rfl
  | signalEnd =>
    have : (d.call .signalEnd).2 = d.signalEnd.2 := by
      simp only [Decoder.call]; split <;> simp_all
    rw [this]
    unfold Decoder.signalEnd
    simp only
    split
    · rw [(keeps_decodeOne _ _).2.1]
    · rfl

private theorem Contained.call {s : DecoderSettings} {D : List UInt8} {d : Decoder B} (h : Contained s D d) (c : DecoderCall) :
    Contained s D (d.call c).2 ∧ (d.call c).2.descriptors = d.descriptors := by
  have key : ∀ (d1 d2 : Decoder B), d2.settings = d1.settings ∧ d2.fromDescriptors = d1.fromDescriptors ∧
      (d2.processor.isSome = d1.processor.isSome) ∧ d2.descriptors = d1.descriptors →
      (d1.settings = d.settings ∧ d1.fromDescriptors = d.fromDescriptors ∧ d1.processor = d.processor ∧ d1.descriptors = d.descriptors) →
      Contained s D d2 ∧ d2.descriptors = d.descriptors := by
    rintro d1 d2 ⟨a1, a2, a3, a4⟩ ⟨b1, b2, b3, b4⟩
    exact ⟨⟨by rw [a1, b1, h.settings], by rw [a2, b2, h.mode], by rw [a3, b3, h.processor], by rw [a4, b4]; exact h.descriptors⟩, by rw [a4, b4]⟩
  cases c with
  | decode bytes =>
    have : (d.call (.decode bytes)).2 = (d.decode bytes).2 := by
      simp only [Decoder.call]; split <;> simp_all
    rw [this]
    unfold Decoder.decode
    split
    · exact key d d ⟨rfl, rfl, rfl, rfl⟩ ⟨rfl, rfl, rfl, rfl⟩
    · split
      · exact key d _ ⟨rfl, rfl, rfl, rfl⟩ ⟨rfl, rfl, rfl, rfl⟩
      · split
        · next hn => have := h.processor; rw [hn] at this; simp at this
        · simp only
          split
          · exact key _ _ (keeps_decodeOne _ _) ⟨rfl, rfl, rfl, rfl⟩
          · exact key d _ ⟨rfl, rfl, rfl, rfl⟩ ⟨rfl, rfl, rfl, rfl⟩
  | getOutput size =>
    simp only [Decoder.call, Decoder.getOutput]
    split
    · exact key d d ⟨rfl, rfl, rfl, rfl⟩ ⟨rfl, rfl, rfl, rfl⟩
    · have fin : ∀ (d1 : Decoder B) (e : Bool) (w : Except Err (List UInt8)),
          (d1.settings = d.settings ∧ d1.fromDescriptors = d.fromDescriptors ∧ d1.processor = d.processor ∧ d1.descriptors = d.descriptors) →
          Contained s D (match Decoder.decodeOne e d1 with | (.error x, d2) => (Except.error x, d2) | (.ok (), d2) => (w, d2)).2 ∧
          (match Decoder.decodeOne e d1 with | (.error x, d2) => (Except.error x, d2) | (.ok (), d2) => (w, d2)).2.descriptors = d.descriptors := by
        intro d1 e w hk
        have hk2 := keeps_decodeOne e d1
        match hd : Decoder.decodeOne e d1 with
        | (.error x, d2) => rw [hd] at hk2; exact key d1 d2 hk2 hk
        | (.ok (), d2) => rw [hd] at hk2; exact key d1 d2 hk2 hk
      cases hw : writeFrameToSpan d.pending d.settings.sampleType size with
      | error e => exact fin d _ _ ⟨rfl, rfl, rfl, rfl⟩
      | ok bytes => exact fin { d with pending := [] } _ _ ⟨rfl, rfl, rfl, rfl⟩
  | signalEnd =>
    have : (d.call .signalEnd).2 = d.signalEnd.2 := by
      simp only [Decoder.call]; split <;> simp_all
    rw [this]
    unfold Decoder.signalEnd
    simp only
    split
    · exact key _ _ (keeps_decodeOne _ _) ⟨rfl, rfl, rfl, rfl⟩
    · exact key d _ ⟨rfl, rfl, rfl, rfl⟩ ⟨rfl, rfl, rfl, rfl⟩

private theorem Contained.reset {s : DecoderSettings} {D : List UInt8} {d : Decoder B} (h : Contained s D d) (pv : Bool) :
    Contained s D (d.reset pv).2 ∧ (d.descriptors = D → OnlyDescriptors D → (d.reset pv).2.descriptors = D) := by
  have hr := reset_creates h.mode pv
  match hc : Decoder.createFromDescriptors (B := B) d.settings pv d.descriptors with
  | (.error e, d1) =>
    rw [hc] at hr
    obtain ⟨d', r1, r2, r3, r4, r5⟩ := hr
    rw [r1]
    exact ⟨⟨by rw [r2, h.settings], r3, by rw [r4, h.processor], by rw [r5]; exact h.descriptors⟩, fun hd _ => by rw [r5, hd]⟩
  | (.ok (), d1) =>
    rw [hc] at hr
    simp only at hr
    rw [hr]
    obtain ⟨hlen, x, k, p, b', c1, c2, c3, c4, rfl⟩ := creation hc
    refine ⟨⟨h.settings, rfl, rfl, (List.take_prefix _ _).trans h.descriptors⟩, fun hd ho => ?_⟩
    simp only
    rw [hd] at c3 c4 ⊢
    unfold OnlyDescriptors at ho
    obtain ⟨q1, -, q3, -⟩ := (parseDescriptors true).run_refines (RBuf.create 1024 D true) (RBuf.wf_create _ _ _ (.inl (by decide)))
    rw [RBuf.abs_create] at q3
    rw [← q3] at c3
    have : ((parseDescriptors true).run (RBuf.create 1024 D true)).2.tell.toNat = 8 * k := c3
    have : k = D.length := by omega
    rw [this, List.take_length]

private def _root_.Iamf.Decoder.asked (d : Decoder B) (mixId : Option UInt32) (layout : Option OutputLayout) : Decoder B :=
  ⟨asking d.settings mixId layout, d.fromDescriptors, d.buffer, d.processor, d.pending, d.ended, d.reorderer, d.descriptors⟩

private theorem newMix_asked {d : Decoder B} (hm : d.fromDescriptors = true) {pv : Bool} {mixId : Option UInt32} {layout : Option OutputLayout} :
    d.resetWithNewMix pv mixId layout = match (d.asked mixId layout).reset pv with
      | (.error e, d) => (.error e, d)
      | (.ok (), d) => (d.getOutputMix, d) := by
  have : d.resetWithNewMix pv mixId layout = if !d.fromDescriptors then (.error .failedPrecondition, d)
      else match (d.asked mixId layout).reset pv with
      | (.error e, d) => (.error e, d)
      | (.ok (), d) => (d.getOutputMix, d) := rfl
  rw [this, if_neg (by simp [hm])]

private theorem Contained.run {s : DecoderSettings} {D : List UInt8} {d : Decoder B} (h : Contained s D d) (cs : List AnyCall) :
    Contained (requested s cs) D (afterCalls d cs) ∧ (d.descriptors = D → OnlyDescriptors D → (afterCalls d cs).descriptors = D) := by
  induction cs generalizing s d with
  | nil => exact ⟨h, fun hd _ => hd⟩
  | cons c cs ih =>
    cases c with
    | call c =>
      obtain ⟨h1, h2⟩ := h.call c
      obtain ⟨i1, i2⟩ := ih h1
      exact ⟨i1, fun hd => i2 (h2.trans hd)⟩
    | reset pv =>
      obtain ⟨h1, h2⟩ := h.reset pv
      obtain ⟨i1, i2⟩ := ih h1
      exact ⟨i1, fun hd ho => i2 (h2 hd ho) ho⟩
    | newMix pv mixId layout =>
      have hn : Contained (asking s mixId layout) D (d.asked mixId layout) :=
        ⟨by rw [← h.settings]; rfl, h.mode, h.processor, h.descriptors⟩
      obtain ⟨h1, h2⟩ := hn.reset pv
      have he : (d.resetWithNewMix pv mixId layout).2 = (Decoder.reset pv (d.asked mixId layout)).2 := by
        rw [newMix_asked h.mode]
        split <;> simp_all
      rw [← he] at h1 h2
      obtain ⟨i1, i2⟩ := ih h1
      exact ⟨i1, fun hd ho => i2 (h2 hd ho) ho⟩

private theorem creation_contained {s : DecoderSettings} {pv : Bool} {D : List UInt8} {d0 : Decoder B}
    (h : Decoder.createFromDescriptors s pv D = (.ok (), d0)) : Contained s D d0 ∧ (OnlyDescriptors D → d0.descriptors = D) := by
  obtain ⟨hlen, x, k, p, b', c1, c2, c3, c4, rfl⟩ := creation h
  refine ⟨⟨rfl, rfl, rfl, List.take_prefix _ _⟩, fun ho => ?_⟩
  simp only
  unfold OnlyDescriptors at ho
  obtain ⟨q1, -, q3, -⟩ := (parseDescriptors true).run_refines (RBuf.create 1024 D true) (RBuf.wf_create _ _ _ (.inl (by decide)))
  rw [RBuf.abs_create] at q3
  rw [← q3] at c3
  have : ((parseDescriptors true).run (RBuf.create 1024 D true)).2.tell.toNat = 8 * k := c3
  have : k = D.length := by omega
  rw [this, List.take_length]

private theorem created_whatever {s : DecoderSettings} {pv : Bool} {D : List UInt8} {d0 : Decoder B}
    (h : Decoder.createFromDescriptors s pv D = (.ok (), d0)) (pv' : Bool) :
    ∃ d1 : Decoder B, Decoder.createFromDescriptors s pv' D = (.ok (), d1) := by
  obtain ⟨hlen, x, k, p, b', c1, c2, c3, c4, rfl⟩ := creation h
  have hf0 := RBuf.Fit.create pv'
  obtain ⟨b, hb, -⟩ := push_refines D (RBuf.create Decoder.kInitialBufferSize [] pv') hf0.wf hf0.cap
    (by simp only [kEntireObuSizeMaxTwoMegabytes, RBuf.create, List.length_nil]; omega)
  obtain ⟨f1, f2, f3⟩ := hf0.push hb
  have hsrc : b.src = D := by rw [f2]; rfl
  have hpos : b.abs.pos = 0 := by rw [f3]; rfl
  obtain ⟨b2, s1, -⟩ := setUp_ok (d := ⟨s, true, b, none, [], false, none, []⟩) (k := k) f1 hsrc hpos c1 c3 c2
  refine ⟨⟨s, true, b2, some p, [], false, none, D.take k⟩, ?_⟩
  unfold Decoder.createFromDescriptors
  rw [hb]
  simp only [s1]

/-! ### Theorems -/

/-- **C50 (a decoder that is reset is a new decoder).** A decoder was created from descriptors; then any calls were made, with any data,
whatever they returned, also calls of `Reset` and `ResetWithNewMix`.  `Reset` now does what creating a decoder from the same descriptors
does, with the mix that was last asked for: it returns the same error, or OK, and then the decoder is the new decoder, so that all later calls
give the same.  (If the bytes the decoder was created from are descriptors of several sequences, only a beginning of them.) -/
theorem C50_reset_is_a_new_decoder (B : Backend) (s : DecoderSettings) (pv : Bool) (D : List UInt8) (d0 : Decoder B)
    (h : Decoder.createFromDescriptors s pv D = (.ok (), d0)) (cs : List AnyCall) :
    ∃ P, P <+: D ∧ (OnlyDescriptors D → P = D) ∧ ∀ pv',
      (∀ e, ((afterCalls d0 cs).reset pv').1 = .error e ↔ (Decoder.createFromDescriptors (B := B) (requested s cs) pv' P).1 = .error e) ∧
      ∀ d1, (afterCalls d0 cs).reset pv' = (.ok (), d1) ↔ Decoder.createFromDescriptors (requested s cs) pv' P = (.ok (), d1) := by
  obtain ⟨c1, c2⟩ := creation_contained h
  obtain ⟨r1, r2⟩ := c1.run cs
  refine ⟨(afterCalls d0 cs).descriptors, r1.descriptors, fun ho => r2 (c2 ho) ho, fun pv' => ?_⟩
  have hr := reset_creates r1.mode pv'
  rw [r1.settings] at hr
  match hc : Decoder.createFromDescriptors (B := B) (requested s cs) pv' (afterCalls d0 cs).descriptors with
  | (.error e, d1) =>
    rw [hc] at hr
    obtain ⟨d', e1, -⟩ := hr
    rw [e1]
    simp
  | (.ok (), d1) =>
    rw [hc] at hr
    simp only at hr
    rw [hr]
    simp

/-- **C50 (`Reset` works).** If no other mix was asked for, `Reset` returns OK, whatever data the decoder got and whatever calls returned. -/
theorem C50_reset_works (B : Backend) (s : DecoderSettings) (pv : Bool) (D : List UInt8) (hone : OnlyDescriptors D) (d0 : Decoder B)
    (h : Decoder.createFromDescriptors s pv D = (.ok (), d0)) (cs : List AnyCall) (hn : requested s cs = s) (pv' : Bool) :
    ∃ d1 : Decoder B, (afterCalls d0 cs).reset pv' = (.ok (), d1) ∧ Decoder.createFromDescriptors s pv' D = (.ok (), d1) := by
  obtain ⟨P, -, hP, hh⟩ := C50_reset_is_a_new_decoder B s pv D d0 h cs
  obtain rfl := hP hone
  obtain ⟨d1, h1⟩ := created_whatever h pv'
  rw [hn] at hh
  exact ⟨d1, ((hh pv').2 d1).mpr h1, h1⟩

/-- **C50 (another mix).** `ResetWithNewMix` does what creating a decoder from the same descriptors does, for the mix and layout that are
asked for, and reports the mix and layout of the new decoder as `GetOutputMix` does. -/
theorem C50_new_mix_is_a_new_decoder (B : Backend) (s : DecoderSettings) (pv : Bool) (D : List UInt8) (hone : OnlyDescriptors D)
    (d0 : Decoder B) (h : Decoder.createFromDescriptors s pv D = (.ok (), d0)) (cs : List AnyCall) (pv' : Bool) (mixId : Option UInt32)
    (layout : Option OutputLayout) :
    match Decoder.createFromDescriptors (B := B) (asking (requested s cs) mixId layout) pv' D with
    | (.ok (), d1) => (afterCalls d0 cs).resetWithNewMix pv' mixId layout = (d1.getOutputMix, d1)
    | (.error e, _) => ((afterCalls d0 cs).resetWithNewMix pv' mixId layout).1 = .error e := by
  obtain ⟨c1, c2⟩ := creation_contained h
  obtain ⟨r1, r2⟩ := c1.run cs
  have hD := r2 (c2 hone) hone
  have hr := reset_creates (d := (afterCalls d0 cs).asked mixId layout) r1.mode pv'
  rw [newMix_asked r1.mode]
  rw [show ((afterCalls d0 cs).asked mixId layout).descriptors = D from hD,
    show ((afterCalls d0 cs).asked mixId layout).settings = asking (requested s cs) mixId layout by rw [← r1.settings]; rfl] at hr
  match hc : Decoder.createFromDescriptors (B := B) (asking (requested s cs) mixId layout) pv' D with
  | (.error e, d1) =>
    rw [hc] at hr
    obtain ⟨d', e1, -⟩ := hr
    rw [e1]
  | (.ok (), d1) =>
    rw [hc] at hr
    simp only at hr
    rw [hr]

/-- **C50 (standalone decoders).** A decoder that was not created from descriptors cannot be reset, and the attempt changes nothing. -/
theorem C50_standalone_decoders_stay (B : Backend) (s : DecoderSettings) (pv pv' : Bool) (cs : List DecoderCall) (mixId : Option UInt32)
    (layout : Option OutputLayout) :
    (decoding B s pv cs).2.reset pv' = (.error .failedPrecondition, (decoding B s pv cs).2) ∧
    (decoding B s pv cs).2.resetWithNewMix pv' mixId layout = (.error .failedPrecondition, (decoding B s pv cs).2) := by
  have hm : ∀ (cs : List DecoderCall) (d : Decoder B), (d.calls cs).2.fromDescriptors = d.fromDescriptors := by
    intro cs
    induction cs with
    | nil => intro d; rfl
    | cons c cs ih =>
      intro d
      simp only [Decoder.calls]
      rw [ih, mode_call]
  have h0 : (decoding B s pv cs).2.fromDescriptors = false := hm cs (Decoder.create s pv)
  generalize (decoding B s pv cs).2 = d at h0
  unfold Decoder.reset Decoder.resetWithNewMix
  rw [if_pos (by simp [h0]), if_pos (by simp [h0])]
  exact ⟨rfl, rfl⟩

/-- **C50 (layouts).** The layouts of the interface are reported as they are asked for; a layout of the bitstream that is reported is the one
it is asked for with. -/
theorem C50_layouts_are_reported_as_asked (o : OutputLayout) : o.toLayout.toOutput = .ok o := by
  cases o with
  | binaural => rfl
  | soundSystem s =>
    have hs := s.isLt
    simp only [OutputLayout.toLayout, Layout.toOutput, ne_eq, not_true_eq_false, ↓reduceIte]
    have : (UInt8.ofNat s.val).toNat = s.val := by rw [UInt8.toNat_ofNat']; omega
    rw [dif_pos (by omega)]
    simp only [this]

@[inherit_doc C50_layouts_are_reported_as_asked]
theorem C50_reported_layouts (l : Layout) (o : OutputLayout) (h : l.toOutput = .ok o) :
    l.type = o.toLayout.type ∧ Decoder.soundSystem l = Decoder.soundSystem o.toLayout := by
  unfold Layout.toOutput at h
  match hl : l.specific with
  | .other r =>
    rw [hl] at h
    simp only at h
    split at h
    · next ht =>
      obtain rfl := Except.ok.inj h
      exact ⟨ht, by simp only [Decoder.soundSystem, hl, OutputLayout.toLayout]⟩
    · simp at h
  | .soundSystem s r =>
    rw [hl] at h
    simp only at h
    split at h
    · simp at h
    · next ht =>
      split at h
      · next hs =>
        obtain rfl := Except.ok.inj h
        refine ⟨Decidable.byContradiction fun hc => ht hc, ?_⟩
        simp only [Decoder.soundSystem, hl, OutputLayout.toLayout, UInt8.ofNat_toNat]
      · simp at h

end Iamf.Props
