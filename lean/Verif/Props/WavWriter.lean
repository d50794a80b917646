import Verif.Cli.WavWriter
import Verif.Props.Output
import Mathlib.Data.List.Induction
import Mathlib.Data.List.Forall2
/-
  C57: WAV files hold the samples that were written to them.
-/
namespace Iamf.Props
open Iamf

/-! ### Specification -/

/-- The bytes of a frame in a WAV file: interleaved samples of `depth` bits, little-endian. -/
def FrameBytes (depth : Nat) (frame : Rendered) (bytes : List UInt8) : Prop :=
  ∃ n, (∀ c ∈ frame, c.length = n) ∧ bytes.length = frame.length * n * (depth / 8) ∧
    ∀ (c t : Nat) samples x, frame[c]? = some samples → samples[t]? = some x →
      leInt ((bytes.drop ((t * frame.length + c) * (depth / 8))).take (depth / 8)) = (normalizedToInt32 x).toInt / 2 ^ (32 - depth)

/-- What a call adds to the sound of a file, by what it returned. -/
inductive Wrote (depth : Nat) : WavCall → Except Err Unit → List UInt8 → Prop where
  | pcm (bytes : List UInt8) : Wrote depth (.writePcm bytes) (.ok ()) bytes
  | frame (frame : Rendered) (bytes : List UInt8) : FrameBytes depth frame bytes → Wrote depth (.pushFrame frame) (.ok ()) bytes
  | flush : Wrote depth .flush (.ok ()) []
  | abort : Wrote depth .abort (.ok ()) []
  | refused (c : WavCall) (e : Err) : Wrote depth c (.error e) []

/-- The library of headers writes headers of one size for a format. -/
def HonestHeaders (H : WavHeaders) : Prop :=
  ∀ depth n m rate channels a b, H depth n rate channels = some a → H depth m rate channels = some b → a.length = b.length

/-- The header of a file with `samples` samples; the one that was written first if the library has none for that many. -/
def headerOf (H : WavHeaders) (header : Bool) (depth : UInt8) (rate : UInt32) (channels samples : Nat) : List UInt8 :=
  if header then (H depth samples rate channels).getD ((H depth 0 rate channels).getD []) else []

/-! ### Proof -/

/-- A writer after calls that wrote `pcm`; `fl` and `ab`: it has been flushed, or aborted. -/
private structure At (H : WavHeaders) (channels : Nat) (rate : UInt32) (depth : UInt8) (most : Nat) (header : Bool) (w : WavWriter)
    (fl ab : Bool) (pcm : List UInt8) : Prop where
  same : w.channels = channels ∧ w.rate = rate ∧ w.depth = depth ∧ w.most = most ∧ w.header = header
  usable : depth = 16 ∨ depth = 24 ∨ depth = 32
  first : header = true → ∃ h, H depth 0 rate channels = some h
  taking : w.taking = !fl
  opened : w.opened = (!fl && !ab)
  count : pcm.length = w.total * (depth.toNat / 8)
  content : w.content = if ab then none else some (headerOf H header depth rate channels (if fl then w.total else 0) ++ pcm)

variable {H : WavHeaders} {channels : Nat} {rate : UInt32} {depth : UInt8} {most : Nat} {header : Bool}

private theorem depth_pos (h : depth = 16 ∨ depth = 24 ∨ depth = 32) : 0 < depth.toNat / 8 ∧ depth.toNat = 8 * (depth.toNat / 8) ∧ okSize depth := by
  rcases h with rfl | rfl | rfl
  · exact ⟨by decide, by decide, .inr (.inl rfl)⟩
  · exact ⟨by decide, by decide, .inr (.inr (.inl rfl))⟩
  · exact ⟨by decide, by decide, .inr (.inr (.inr rfl))⟩

private theorem created_at {w : WavWriter} {disk : Option (List UInt8)}
    (h : WavWriter.create H channels rate depth most header = (some w, disk)) :
    At H channels rate depth most header w false false [] := by
  unfold WavWriter.create at h
  split at h
  · next hd =>
    split at h
    · next hh =>
      split at h
      · cases h
      · next x hx =>
        cases h
        subst hh
        exact ⟨⟨rfl, rfl, rfl, rfl, rfl⟩, hd, fun _ => ⟨x, hx⟩, rfl, rfl, by simp, by simp [headerOf, hx]⟩
    · next hh =>
      cases h
      have : header = false := by simpa using hh
      subst this
      exact ⟨⟨rfl, rfl, rfl, rfl, rfl⟩, hd, nofun, rfl, rfl, by simp, by simp [headerOf]⟩
  · cases h

/-- The sizes that are accepted. -/
private def sizeOk (channels most : Nat) (depth : UInt8) (n : Nat) : Prop := ∃ ticks ≤ most, n = channels * ticks * (depth.toNat / 8)

private theorem write_at {w : WavWriter} {fl ab : Bool} {pcm : List UInt8} (h : At H channels rate depth most header w fl ab pcm)
    (bytes : List UInt8) :
    ((w.write bytes).1 = .ok () ∧ fl = false ∧ ab = false ∧ sizeOk channels most depth bytes.length ∧
      At H channels rate depth most header (w.write bytes).2 fl ab (pcm ++ bytes)) ∨
    (∃ e, (w.write bytes).1 = .error e ∧ (w.write bytes).2 = w ∧ ¬ (fl = false ∧ ab = false ∧ sizeOk channels most depth bytes.length) ∧
      (e = .ub → channels = 0 ∧ bytes ≠ [] ∧ fl = false ∧ ab = false) ∧
      ((channels = 0 ∧ bytes ≠ [] ∧ fl = false ∧ ab = false) → e = .ub)) := by
  obtain ⟨s1, s2, s3, s4, s5⟩ := h.same
  obtain ⟨d1, d2, d3⟩ := depth_pos h.usable
  have hunit : depth.toNat * channels / 8 = channels * (depth.toNat / 8) := by
    generalize depth.toNat / 8 = k at d2 ⊢
    rw [d2, Nat.mul_assoc, Nat.mul_div_cancel_left _ (by decide), Nat.mul_comm]
  unfold WavWriter.write
  rw [h.opened, s1, s3, s4, hunit]
  cases fl with
  | true => exact .inr ⟨.failedPrecondition, by simp, by simp, by simp, by simp, by simp⟩
  | false => cases ab with
    | true => exact .inr ⟨.failedPrecondition, by simp, by simp, by simp, by simp, by simp⟩
    | false =>
      simp only [Bool.not_false, Bool.and_self, Bool.not_true, Bool.false_eq_true, ↓reduceIte]
      by_cases h0 : bytes.length = 0
      · rw [if_pos h0]
        have : bytes = [] := by simpa using h0
        subst this
        refine .inl ⟨rfl, trivial, trivial, ⟨0, Nat.zero_le _, by simp⟩, ?_⟩
        rw [List.append_nil]
        exact h
      · rw [if_neg h0]
        by_cases hz : channels * (depth.toNat / 8) = 0
        · rw [if_pos hz]
          have hc : channels = 0 := by
            rcases Nat.mul_eq_zero.mp hz with hz | hz
            · exact hz
            · omega
          refine .inr ⟨_, rfl, rfl, ?_, fun _ => ⟨hc, by rintro rfl; exact h0 rfl, trivial, trivial⟩, fun _ => rfl⟩
          rintro ⟨-, -, n, -, hn⟩
          rw [hc] at hn
          simp at hn
          exact h0 (by simp [hn])
        · rw [if_neg hz]
          have hcp : 0 < channels := Nat.pos_of_ne_zero fun e => hz (by simp [e])
          by_cases hm : bytes.length % (channels * (depth.toNat / 8)) ≠ 0
          · rw [if_pos hm]
            refine .inr ⟨_, rfl, rfl, ?_, (by intro e; cases e), (by rintro ⟨e, -⟩; omega)⟩
            rintro ⟨-, -, n, -, hn⟩
            refine hm ?_
            rw [hn, Nat.mul_assoc, Nat.mul_left_comm, Nat.mul_mod_left]
          · rw [if_neg hm]
            have hm' : bytes.length % (channels * (depth.toNat / 8)) = 0 := by omega
            obtain ⟨n, hn⟩ := Nat.dvd_of_mod_eq_zero hm'
            have hsamples : bytes.length / (depth.toNat / 8) = channels * n := by
              rw [hn, Nat.mul_right_comm, Nat.mul_div_cancel _ d1]
            have hticks : bytes.length / (depth.toNat / 8) / channels = n := by
              rw [hsamples, Nat.mul_div_cancel_left _ hcp]
            rw [hticks]
            have hsize : bytes.length = channels * n * (depth.toNat / 8) := by rw [hn, Nat.mul_right_comm]
            by_cases ht : n > most
            · rw [if_pos ht]
              refine .inr ⟨_, rfl, rfl, ?_, (by intro e; cases e), (by rintro ⟨e, -⟩; omega)⟩
              rintro ⟨-, -, m, hm1, hm2⟩
              rw [hsize] at hm2
              have := Nat.eq_of_mul_eq_mul_right d1 hm2
              have := Nat.eq_of_mul_eq_mul_left hcp this
              omega
            · rw [if_neg ht]
              refine .inl ⟨rfl, trivial, trivial, ⟨n, by omega, hsize⟩, ⟨rfl, s2, rfl, rfl, s5⟩, h.usable, h.first, by simp [h.taking],
                by simp, ?_, ?_⟩
              · simp only [List.length_append, h.count, hsamples, Nat.add_mul]
                rw [hsize]
              · have := h.content
                simp only [Bool.false_eq_true, ↓reduceIte] at this ⊢
                rw [this]
                simp

private theorem layout_of {frame : Rendered} {n : Nat} (hd : depth = 16 ∨ depth = 24 ∨ depth = 32) (hn : ∀ c ∈ frame, c.length = n) :
    ∃ b, writeTicks (fun x => .ok (normalizedToInt32 x)) depth false frame 0 n = .ok b ∧ b.length = frame.length * n * (depth.toNat / 8) ∧
      FrameBytes depth.toNat frame b := by
  obtain ⟨d1, d2, d3⟩ := depth_pos hd
  obtain ⟨b, h1, h2, h3⟩ := writeTicks_layout normalizedToInt32 false d3 frame n (fun c hc => Nat.le_of_eq (hn c hc).symm)
  refine ⟨b, h1, h2, n, hn, h2, ?_⟩
  intro c t samples x hc ht
  obtain ⟨hc', hc2⟩ := List.getElem?_eq_some_iff.mp hc
  obtain ⟨ht', ht2⟩ := List.getElem?_eq_some_iff.mp ht
  have hlt : t < n := by rw [← hn samples (hc2 ▸ List.getElem_mem _)]; exact ht'
  have h4 := h3 c t hc' hlt
  obtain ⟨bytes, k1, -, k3⟩ := (C32_one_sample (normalizedToInt32 x) depth false).1 d3
  subst hc2
  subst ht2
  rw [k1] at h4
  cases h4
  rw [← k3]

private theorem push_at {w : WavWriter} {fl ab : Bool} {pcm : List UInt8} (h : At H channels rate depth most header w fl ab pcm)
    (frame : Rendered) :
    ((w.pushFrame frame).1 = .ok () ∧ (fl = false ∧ ab = false ∧ frame.length = channels ∧ ∃ n ≤ most, ∀ c ∈ frame, c.length = n) ∧
      ∃ bytes, FrameBytes depth.toNat frame bytes ∧ At H channels rate depth most header (w.pushFrame frame).2 fl ab (pcm ++ bytes)) ∨
    (∃ e, (w.pushFrame frame).1 = .error e ∧ (w.pushFrame frame).2 = w ∧ e ≠ .ub ∧
      ¬ (fl = false ∧ ab = false ∧ frame.length = channels ∧ ∃ n ≤ most, ∀ c ∈ frame, c.length = n)) := by
  obtain ⟨s1, s2, s3, s4, s5⟩ := h.same
  obtain ⟨d1, d2, d3⟩ := depth_pos h.usable
  unfold WavWriter.pushFrame
  rw [h.taking, s1, s3, s4]
  cases fl with
  | true => exact .inr ⟨_, rfl, rfl, by decide, by simp⟩
  | false =>
    simp only [Bool.not_false, Bool.not_true, Bool.false_eq_true, ↓reduceIte]
    by_cases hl : frame.length ≠ channels
    · rw [if_pos hl]
      exact .inr ⟨_, rfl, rfl, by decide, fun x => hl x.2.2.1⟩
    · rw [if_neg hl]
      have hl' : frame.length = channels := by omega
      by_cases ha : frame.any (fun c => c.length ≠ (frame.headD []).length ∨ c.length > most) = true
      · rw [if_pos ha]
        refine .inr ⟨_, rfl, rfl, by decide, ?_⟩
        rintro ⟨-, -, -, n, hn, hall⟩
        obtain ⟨c, hc, hb⟩ := List.any_eq_true.mp ha
        have hhead : (frame.headD []).length = n := by
          cases hf : frame with
          | nil => rw [hf] at hc; cases hc
          | cons a l => exact hall a (by rw [hf]; simp)
        have := hall c hc
        rw [hhead] at hb
        simp only [decide_eq_true_eq] at hb
        omega
      · rw [if_neg ha]
        have hall : ∀ c ∈ frame, c.length = (frame.headD []).length ∧ c.length ≤ most := by
          intro c hc
          refine Decidable.byContradiction fun hcon => ha (List.any_eq_true.mpr ⟨c, hc, ?_⟩)
          simp only [decide_eq_true_eq]
          omega
        obtain ⟨b, b1, b2, b3⟩ := layout_of h.usable (fun c hc => (hall c hc).1)
        rw [b1]
        simp only
        have hbound : ∃ n ≤ most, (∀ c ∈ frame, c.length = n) ∧ b.length = channels * n * (depth.toNat / 8) := by
          cases hf : frame with
          | nil =>
            rw [hf] at hl' b2
            exact ⟨0, Nat.zero_le _, nofun, by rw [b2, ← hl']; simp⟩
          | cons a l =>
            rw [hf] at hall b2
            exact ⟨_, by have := hall a (by simp); simpa using this.2, fun c hc => (hall c hc).1, by rw [b2, ← hl', hf]⟩
        obtain ⟨n, hn1, hn2, hn3⟩ := hbound
        rw [if_neg (by
          rw [hn3]
          have : channels * n * (depth.toNat / 8) ≤ channels * most * (depth.toNat / 8) :=
            Nat.mul_le_mul_right _ (Nat.mul_le_mul_left _ hn1)
          omega)]
        rcases write_at h b with ⟨w1, w2, w3, -, w5⟩ | ⟨e, w1, w2, w3, w4, w5⟩
        · exact .inl ⟨w1, ⟨trivial, w3, hl', n, hn1, hn2⟩, b, b3, w5⟩
        · refine .inr ⟨e, w1, w2, ?_, fun x => w3 ⟨rfl, x.2.1, n, hn1, hn3⟩⟩
          rintro rfl
          obtain ⟨k1, k2, -⟩ := w4 rfl
          rw [k1] at hn3
          simp at hn3
          exact k2 hn3

private theorem final_at (hH : HonestHeaders H) {w : WavWriter} {ab : Bool} {pcm : List UInt8}
    (h : At H channels rate depth most header w false ab pcm) (taking : Bool) (ht : taking = false) :
    At H channels rate depth most header ({ w with taking := taking }.finalize H) true ab pcm := by
  obtain ⟨s1, s2, s3, s4, s5⟩ := h.same
  subst ht
  unfold WavWriter.finalize
  simp only [h.opened]
  cases ab with
  | true => exact ⟨⟨s1, s2, s3, s4, s5⟩, h.usable, h.first, rfl, rfl, h.count, h.content⟩
  | false =>
    simp only [Bool.not_false, Bool.and_self, Bool.not_true, Bool.false_eq_true, ↓reduceIte, s1, s2, s3, s5]
    refine ⟨⟨rfl, rfl, rfl, s4, rfl⟩, h.usable, h.first, rfl, rfl, h.count, ?_⟩
    have hc := h.content
    simp only [Bool.false_eq_true, ↓reduceIte] at hc ⊢
    rw [hc]
    cases header with
    | false => simp [headerOf]
    | true =>
      obtain ⟨h0, hh0⟩ := h.first rfl
      simp only [↓reduceIte, headerOf, hh0, Option.getD_some]
      cases hx : H depth w.total rate channels with
      | none => simp
      | some x =>
        have := hH depth w.total 0 rate channels x h0 hx hh0
        simp only [Option.map_some, Option.getD_some, this, List.drop_left]

private def isFlush : WavCall → Bool
  | .flush => true
  | _ => false

private def isAbort : WavCall → Bool
  | .abort => true
  | _ => false

private theorem call_at (hH : HonestHeaders H) {w : WavWriter} {fl ab : Bool} {pcm : List UInt8}
    (h : At H channels rate depth most header w fl ab pcm) (c : WavCall) (hu : (w.call H c).1 ≠ .error .ub) :
    ∃ part, Wrote depth.toNat c (w.call H c).1 part ∧
      At H channels rate depth most header (w.call H c).2 (fl || isFlush c)
        (ab || isAbort c) (pcm ++ part) := by
  cases c with
  | pushFrame frame =>
    simp only [WavWriter.call, isFlush, isAbort, Bool.or_false]
    rcases push_at h frame with ⟨w1, -, b, w2, w3⟩ | ⟨e, w1, w2, -⟩
    · exact ⟨b, by rw [w1]; exact .frame _ _ w2, w3⟩
    · exact ⟨[], by rw [w1]; exact .refused _ _, by rw [w2, List.append_nil]; exact h⟩
  | writePcm bytes =>
    simp only [WavWriter.call, isFlush, isAbort, Bool.or_false]
    rcases write_at h bytes with ⟨w1, -, -, -, w3⟩ | ⟨e, w1, w2, -⟩
    · exact ⟨bytes, by rw [w1]; exact .pcm _, w3⟩
    · exact ⟨[], by rw [w1]; exact .refused _ _, by rw [w2, List.append_nil]; exact h⟩
  | flush =>
    simp only [WavWriter.call, isFlush, isAbort, Bool.or_false, Bool.or_true, WavWriter.flush, h.taking, List.append_nil]
    cases fl with
    | true => exact ⟨[], .refused _ _, by rw [List.append_nil]; exact h⟩
    | false => exact ⟨[], .flush, by rw [List.append_nil]; exact final_at hH h false rfl⟩
  | abort =>
    simp only [WavWriter.call, WavWriter.abort, h.opened] at hu ⊢
    cases fl with
    | true => simp at hu
    | false => cases ab with
      | true => simp at hu
      | false =>
        refine ⟨[], .abort, ?_⟩
        simp only [Bool.not_false, Bool.and_self, Bool.not_true, Bool.false_eq_true, ↓reduceIte, List.append_nil, isFlush, isAbort, Bool.or_false, Bool.or_true]
        exact ⟨h.same, h.usable, h.first, h.taking, rfl, h.count, rfl⟩

private theorem calls_at (hH : HonestHeaders H) (cs : List WavCall) {w : WavWriter} {fl ab : Bool} {pcm : List UInt8}
    (h : At H channels rate depth most header w fl ab pcm) (hu : ∀ r ∈ (w.calls H cs).1, r ≠ .error .ub) :
    ∃ parts, List.Forall₂ (fun e part => Wrote depth.toNat e.1 e.2 part) (cs.zip (w.calls H cs).1) parts ∧
      At H channels rate depth most header (w.calls H cs).2 (fl || cs.any isFlush) (ab || cs.any isAbort) (pcm ++ parts.flatten) := by
  induction cs generalizing w fl ab pcm with
  | nil => exact ⟨[], .nil, by simpa [WavWriter.calls] using h⟩
  | cons c cs ih =>
    obtain ⟨part, p1, p2⟩ := call_at hH h c (hu _ (by simp [WavWriter.calls]))
    obtain ⟨parts, q1, q2⟩ := ih p2 (fun r hr => hu r (by simp [WavWriter.calls, hr]))
    refine ⟨part :: parts, by rw [WavWriter.calls]; exact .cons p1 q1, ?_⟩
    rw [Bool.or_assoc, Bool.or_assoc, ← List.any_cons, ← List.any_cons] at q2
    rw [List.flatten_cons, ← List.append_assoc]
    exact q2

private theorem any_flush (cs : List WavCall) : cs.any isFlush = true ↔ .flush ∈ cs := by
  rw [List.any_eq_true]
  constructor
  · rintro ⟨c, hc, h⟩
    cases c <;> first | exact hc | cases h
  · exact fun h => ⟨_, h, rfl⟩

private theorem any_abort (cs : List WavCall) : cs.any isAbort = true ↔ .abort ∈ cs := by
  rw [List.any_eq_true]
  constructor
  · rintro ⟨c, hc, h⟩
    cases c <;> first | exact hc | cases h
  · exact fun h => ⟨_, h, rfl⟩

/-! ### Theorems -/

/-- **C57 (what is in the file).** After any history of calls of a WAV writer, none of which is undefined behaviour: what is in the file is
a header and, behind it, the samples of all calls that returned OK, in their order and nothing else: the bytes that were given to
`WritePcmSamples`, the frames that were pushed as interleaved samples of the bit depth.  The header is that of an empty file until the
writer is flushed or destroyed; then it is that of a file with as many samples as were written.  There is no file after `Abort`. -/
theorem C57_what_is_in_the_file (hH : HonestHeaders H) (w0 : WavWriter) (disk : Option (List UInt8))
    (h : WavWriter.create H channels rate depth most header = (some w0, disk)) (cs : List WavCall)
    (hu : ∀ r ∈ (w0.calls H cs).1, r ≠ .error .ub) :
    ∃ parts, List.Forall₂ (fun e part => Wrote depth.toNat e.1 e.2 part) (cs.zip (w0.calls H cs).1) parts ∧
      (.abort ∈ cs → (w0.calls H cs).2.content = none ∧ ((w0.calls H cs).2.finalize H).content = none) ∧
      (.abort ∉ cs → .flush ∉ cs → (w0.calls H cs).2.content =
        some (headerOf H header depth rate channels 0 ++ parts.flatten)) ∧
      (.abort ∉ cs → .flush ∈ cs → (w0.calls H cs).2.content =
        some (headerOf H header depth rate channels (parts.flatten.length / (depth.toNat / 8)) ++ parts.flatten)) ∧
      (.abort ∉ cs → ((w0.calls H cs).2.finalize H).content =
        some (headerOf H header depth rate channels (parts.flatten.length / (depth.toNat / 8)) ++ parts.flatten)) := by
  obtain ⟨parts, p1, p2⟩ := calls_at hH cs (created_at h) hu
  simp only [Bool.false_or, List.nil_append] at p2
  obtain ⟨d1, -, -⟩ := depth_pos p2.usable
  have hcount : parts.flatten.length / (depth.toNat / 8) = (w0.calls H cs).2.total := by
    rw [p2.count, Nat.mul_div_cancel _ d1]
  have hno : (w0.calls H cs).2.opened = false → (w0.calls H cs).2.finalize H = (w0.calls H cs).2 := by
    intro e
    unfold WavWriter.finalize
    rw [e]; rfl
  refine ⟨parts, p1, ?_⟩
  rw [hcount]
  refine ⟨?_, ?_, ?_, ?_⟩
  · intro ha
    have ha' := (any_abort cs).mpr ha
    rw [ha'] at p2
    have hc : (w0.calls H cs).2.content = none := p2.content
    refine ⟨hc, ?_⟩
    rw [hno (by rw [p2.opened]; simp)]
    exact hc
  · intro ha hf
    have e1 : cs.any isAbort = false := by rw [← Bool.not_eq_true, any_abort]; exact ha
    have e2 : cs.any isFlush = false := by rw [← Bool.not_eq_true, any_flush]; exact hf
    rw [e1, e2] at p2
    exact p2.content
  · intro ha hf
    have e1 : cs.any isAbort = false := by rw [← Bool.not_eq_true, any_abort]; exact ha
    rw [e1, (any_flush cs).mpr hf] at p2
    exact p2.content
  · intro ha
    have e1 : cs.any isAbort = false := by rw [← Bool.not_eq_true, any_abort]; exact ha
    rw [e1] at p2
    cases e2 : cs.any isFlush with
    | true =>
      rw [e2] at p2
      rw [hno (by rw [p2.opened]; simp)]
      exact p2.content
    | false =>
      rw [e2] at p2
      have := (final_at hH p2 false rfl).content
      have htotal : ∀ b, ({ (w0.calls H cs).2 with taking := b }.finalize H).total = (w0.calls H cs).2.total := by
        intro b
        unfold WavWriter.finalize
        split <;> rfl
      have hcont : ∀ b, ({ (w0.calls H cs).2 with taking := b }.finalize H).content = ((w0.calls H cs).2.finalize H).content := by
        intro b
        unfold WavWriter.finalize
        simp only
        split <;> rfl
      rw [hcont, htotal] at this
      exact this

/-- **C57 (which calls are accepted).** After any history of calls, none of which was undefined behaviour: bytes are accepted if they are
whole samples of all channels, of at most the maximum number of ticks; a frame, if it has as many channels as the file, all of them of one
length that is at most the maximum.  Both are refused after `Flush` and after `Abort`; `Flush` is refused after `Flush`.  The only calls
that are undefined behaviour are `Abort` of a file that is closed already, and bytes for a file without channels: in particular no frame
makes the writer write past the end of its buffer. -/
theorem C57_which_calls_are_accepted (hH : HonestHeaders H) (w0 : WavWriter) (disk : Option (List UInt8))
    (h : WavWriter.create H channels rate depth most header = (some w0, disk)) (cs : List WavCall)
    (hu : ∀ r ∈ (w0.calls H cs).1, r ≠ .error .ub) (w : WavWriter) (hw : w = (w0.calls H cs).2) :
    (∀ bytes, (w.call H (.writePcm bytes)).1 = .ok () ↔
      .flush ∉ cs ∧ .abort ∉ cs ∧ ∃ ticks ≤ most, bytes.length = channels * ticks * (depth.toNat / 8)) ∧
    (∀ frame, (w.call H (.pushFrame frame)).1 = .ok () ↔
      .flush ∉ cs ∧ .abort ∉ cs ∧ frame.length = channels ∧ ∃ ticks ≤ most, ∀ c ∈ frame, c.length = ticks) ∧
    ((w.call H .flush).1 = .ok () ↔ .flush ∉ cs) ∧
    ((w.call H .abort).1 = .ok () ↔ .flush ∉ cs ∧ .abort ∉ cs) ∧
    (∀ c, (w.call H c).1 = .error .ub ↔
      (c = .abort ∧ (.flush ∈ cs ∨ .abort ∈ cs)) ∨
      (channels = 0 ∧ .flush ∉ cs ∧ .abort ∉ cs ∧ ∃ bytes, bytes ≠ [] ∧ c = .writePcm bytes)) := by
  obtain ⟨parts, -, p2⟩ := calls_at hH cs (created_at h) hu
  simp only [Bool.false_or, List.nil_append] at p2
  rw [← hw] at p2
  have ef : cs.any isFlush = false ↔ .flush ∉ cs := by rw [← Bool.not_eq_true, any_flush]
  have ea : cs.any isAbort = false ↔ .abort ∉ cs := by rw [← Bool.not_eq_true, any_abort]
  have hwrite : ∀ bytes, (w.call H (.writePcm bytes)).1 = .ok () ↔
      .flush ∉ cs ∧ .abort ∉ cs ∧ ∃ ticks ≤ most, bytes.length = channels * ticks * (depth.toNat / 8) := by
    intro bytes
    simp only [WavWriter.call]
    rcases write_at p2 bytes with ⟨w1, w2, w3, w4, -⟩ | ⟨e, w1, -, w3, -⟩
    · exact ⟨fun _ => ⟨ef.mp w2, ea.mp w3, w4⟩, fun _ => w1⟩
    · rw [w1]
      exact ⟨nofun, fun x => absurd ⟨ef.mpr x.1, ea.mpr x.2.1, x.2.2⟩ w3⟩
  have hpush : ∀ frame, (w.call H (.pushFrame frame)).1 = .ok () ↔
      .flush ∉ cs ∧ .abort ∉ cs ∧ frame.length = channels ∧ ∃ ticks ≤ most, ∀ c ∈ frame, c.length = ticks := by
    intro frame
    simp only [WavWriter.call]
    rcases push_at p2 frame with ⟨w1, ⟨w2, w3, w4⟩, -⟩ | ⟨e, w1, -, -, w3⟩
    · exact ⟨fun _ => ⟨ef.mp w2, ea.mp w3, w4⟩, fun _ => w1⟩
    · rw [w1]
      exact ⟨nofun, fun x => absurd ⟨ef.mpr x.1, ea.mpr x.2.1, x.2.2⟩ w3⟩
  refine ⟨hwrite, hpush, ?_, ?_, ?_⟩
  · simp only [WavWriter.call, WavWriter.flush, p2.taking]
    rw [← ef]
    cases cs.any isFlush <;> simp
  · simp only [WavWriter.call, WavWriter.abort, p2.opened]
    rw [← ef, ← ea]
    cases cs.any isFlush <;> cases cs.any isAbort <;> simp
  · intro c
    cases c with
    | writePcm bytes =>
      simp only [WavWriter.call, reduceCtorEq, false_and, false_or, WavCall.writePcm.injEq, exists_eq_right']
      rcases write_at p2 bytes with ⟨w1, w2, w3, ⟨n, w4, w5⟩, -⟩ | ⟨e, w1, -, -, w4, w5⟩
      · rw [w1]
        refine ⟨nofun, fun ⟨k1, _, _, k4⟩ => ?_⟩
        rw [k1] at w5
        simp at w5
        exact absurd w5 k4
      · rw [w1]
        constructor
        · intro k
          cases k
          obtain ⟨k1, k2, k3, k4⟩ := w4 rfl
          exact ⟨k1, ef.mp k3, ea.mp k4, k2⟩
        · rintro ⟨k1, k2, k3, k4⟩
          rw [w5 ⟨k1, k4, ef.mpr k2, ea.mpr k3⟩]
    | pushFrame frame =>
      simp only [WavWriter.call, reduceCtorEq, false_and, false_or, and_false, exists_false, iff_false]
      rcases push_at p2 frame with ⟨w1, -⟩ | ⟨e, w1, -, w3, -⟩
      · rw [w1]; exact nofun
      · rw [w1]; exact fun k => w3 (by cases k; rfl)
    | flush =>
      simp only [WavWriter.call, WavWriter.flush, reduceCtorEq, false_and, false_or, and_false, exists_false, iff_false]
      split <;> exact nofun
    | abort =>
      simp only [WavWriter.call, WavWriter.abort, p2.opened, reduceCtorEq, and_false, exists_false, or_false, true_and]
      rw [← any_flush, ← any_abort]
      cases cs.any isFlush <;> cases cs.any isAbort <;> simp

/-- **C57 (which writers can be made).** A writer is made for files of 16, 24 and 32 bits, unless the library has no header for them. -/
theorem C57_which_files_are_written (H : WavHeaders) (channels : Nat) (rate : UInt32) (depth : UInt8) (most : Nat) (header : Bool) :
    (∃ w, (WavWriter.create H channels rate depth most header).1 = some w) ↔
      (depth = 16 ∨ depth = 24 ∨ depth = 32) ∧ (header = true → ∃ h, H depth 0 rate channels = some h) := by
  unfold WavWriter.create
  by_cases hd : depth = 16 ∨ depth = 24 ∨ depth = 32
  · rw [if_pos hd]
    cases header with
    | false => simp [hd]
    | true =>
      simp only [↓reduceIte, hd, forall_const, true_and]
      cases H depth 0 rate channels with
      | none => simp
      | some h => simp
  · rw [if_neg hd]
    simp [hd]

/-! ### The files that the encoder writes of its mix presentations -/

/-- The bit depth of the files that are written in an output format, if any is: 2 is that of the mix presentation, 3, 4 and 5 ask for 16, 24 and 32 bits. -/
def DepthOf (format : Nat) (depth d : UInt8) : Prop :=
  format = 2 ∧ d = depth ∨ format = 3 ∧ d = 16 ∨ format = 4 ∧ d = 24 ∨ format = 5 ∧ d = 32

/-- **C57 (output formats).** With an output format, files are made as without it but for their bit depth, which is the one that was asked for; with the format "none", or one that does not exist, no
file is made. -/
theorem C57_output_formats (S : PostProcessors) (format : Nat) :
    ∃ create, outputFormat format S = ⟨S.State, create, S.push, S.flush, S.output⟩ ∧ ∀ id i j l n r depth f,
      (∀ d, DepthOf format depth d → create id i j l n r depth f = S.create id i j l n r d f) ∧
      ((∀ d, ¬ DepthOf format depth d) → create id i j l n r depth f = none) := by
  unfold outputFormat noFiles DepthOf
  split
  · next h =>
    refine ⟨_, rfl, fun id i j l n r depth f => ⟨?_, fun h' => absurd ?_ (h' depth)⟩⟩
    · rintro d (⟨-, rfl⟩ | ⟨h', -⟩ | ⟨h', -⟩ | ⟨h', -⟩)
      · rfl
      all_goals omega
    · exact .inl ⟨h, rfl⟩
  next h2 =>
  split
  · next h =>
    refine ⟨_, rfl, fun id i j l n r depth f => ⟨?_, fun h' => absurd ?_ (h' 16)⟩⟩
    · rintro d (⟨h', -⟩ | ⟨-, rfl⟩ | ⟨h', -⟩ | ⟨h', -⟩)
      · omega
      · rfl
      all_goals omega
    · exact .inr (.inl ⟨h, rfl⟩)
  next h3 =>
  split
  · next h =>
    refine ⟨_, rfl, fun id i j l n r depth f => ⟨?_, fun h' => absurd ?_ (h' 24)⟩⟩
    · rintro d (⟨h', -⟩ | ⟨h', -⟩ | ⟨-, rfl⟩ | ⟨h', -⟩)
      · omega
      · omega
      · rfl
      · omega
    · exact .inr (.inr (.inl ⟨h, rfl⟩))
  next h4 =>
  split
  · next h =>
    refine ⟨_, rfl, fun id i j l n r depth f => ⟨?_, fun h' => absurd ?_ (h' 32)⟩⟩
    · rintro d (⟨h', -⟩ | ⟨h', -⟩ | ⟨h', -⟩ | ⟨-, rfl⟩)
      · omega
      · omega
      · omega
      · rfl
    · exact .inr (.inr (.inr ⟨h, rfl⟩))
  next h5 =>
    refine ⟨_, rfl, fun id i j l n r depth f => ⟨?_, fun _ => rfl⟩⟩
    rintro d (⟨h', -⟩ | ⟨h', -⟩ | ⟨h', -⟩ | ⟨h', -⟩) <;> omega

/-- A post-processor after frames were pushed to it. -/
def afterFrames (S : PostProcessors) (s : S.State) (frames : List Rendered) : S.State := frames.foldl (fun s x => (S.push s x).2) s

private theorem calls_snoc (H : WavHeaders) (c : WavCall) : ∀ (cs : List WavCall) (w : WavWriter),
    w.calls H (cs ++ [c]) = ((w.calls H cs).1 ++ [((w.calls H cs).2.call H c).1], ((w.calls H cs).2.call H c).2)
  | [], w => rfl
  | b :: cs, w => by
    simp only [List.cons_append, WavWriter.calls, calls_snoc H c cs]

private theorem calls_frames (H : WavHeaders) : ∀ (frames : List Rendered) (w : WavWriter),
    (w.calls H (frames.map .pushFrame)).2 = afterFrames (wavFiles H) w frames
  | [], _ => rfl
  | x :: frames, w => by
    simp only [List.map_cons, WavWriter.calls, calls_frames H frames]
    rfl

private theorem calls_length (H : WavHeaders) : ∀ (cs : List WavCall) (w : WavWriter), (w.calls H cs).1.length = cs.length
  | [], _ => rfl
  | c :: cs, w => by simp only [WavWriter.calls, List.length_cons, calls_length H cs]

private theorem no_flush (frames : List Rendered) : WavCall.flush ∉ frames.map WavCall.pushFrame ∧ WavCall.abort ∉ frames.map WavCall.pushFrame :=
  ⟨by simp, by simp⟩

private theorem frames_defined (hH : HonestHeaders H) (w0 : WavWriter) (disk : Option (List UInt8))
    (h : WavWriter.create H channels rate depth most header = (some w0, disk)) (frames : List Rendered) :
    (∀ r ∈ (w0.calls H (frames.map .pushFrame)).1, r ≠ .error .ub) ∧
    List.Forall₂ (fun frame r => r = .ok () ↔ frame.length = channels ∧ ∃ ticks ≤ most, ∀ c ∈ frame, c.length = ticks) frames
      (w0.calls H (frames.map .pushFrame)).1 := by
  induction frames using List.reverseRecOn with
  | nil => exact ⟨fun r hr => (by cases hr), .nil⟩
  | append_singleton frames x ih =>
    obtain ⟨-, k1, -, -, k2⟩ := C57_which_calls_are_accepted hH w0 disk h _ ih.1 _ rfl
    rw [List.map_append, List.map_cons, List.map_nil, calls_snoc]
    constructor
    · intro r hr
      rcases List.mem_append.mp hr with hr | hr
      · exact ih.1 r hr
      · rw [List.mem_singleton.mp hr]
        intro hc
        rcases (k2 _).mp hc with ⟨h', -⟩ | ⟨-, -, -, _, -, h'⟩ <;> cases h'
    · refine List.rel_append ih.2 (.cons ?_ .nil)
      rw [k1]
      simp [no_flush frames]

/-- **C57 (files of the encoder).** The file that the encoder writes of a layout of a mix presentation: after any frames were pushed, and the writer was flushed, it has a header with the number of
samples and, behind it, all frames that have the channels and at most the length that the writer was made for; other frames are left out, and none of this is undefined. -/
theorem C57_files_of_the_encoder (hH : HonestHeaders H) (id : UInt32) (i j : Nat) (l : Layout) (number : Int) (size : UInt32) (w : WavWriter)
    (h : (wavFiles H).create id i j l number rate depth size = some w) (frames : List Rendered) :
    ∃ parts, List.Forall₂ (fun frame part => if frame.length = number.toNat ∧ ∃ ticks ≤ size.toNat, ∀ c ∈ frame, c.length = ticks then FrameBytes depth.toNat frame part else part = [])
        frames parts ∧
      ((wavFiles H).flush (afterFrames (wavFiles H) w frames)).1 = .ok () ∧
      ((wavFiles H).flush (afterFrames (wavFiles H) w frames)).2.content =
        some (headerOf H true depth rate number.toNat (parts.flatten.length / (depth.toNat / 8)) ++ parts.flatten) := by
  obtain ⟨disk, hd⟩ : ∃ disk, WavWriter.create H number.toNat rate depth size.toNat true = (some w, disk) := ⟨_, Prod.ext h rfl⟩
  obtain ⟨f1, f2⟩ := frames_defined hH w disk hd frames
  obtain ⟨-, -, k3, -, k2⟩ := C57_which_calls_are_accepted hH w disk hd _ f1 _ rfl
  have hfl := k3.mpr (no_flush frames).1
  have hdef : ∀ r ∈ (w.calls H (frames.map .pushFrame ++ [.flush])).1, r ≠ .error .ub := by
    intro r hr
    rw [calls_snoc] at hr
    rcases List.mem_append.mp hr with hr | hr
    · exact f1 r hr
    · rw [List.mem_singleton.mp hr, hfl]
      nofun
  obtain ⟨parts, p1, -, -, p2, -⟩ := C57_what_is_in_the_file hH w disk hd (frames.map .pushFrame ++ [.flush]) hdef
  have p3 := p2 (by simp) (by simp)
  rw [calls_snoc] at p1 p3
  simp only at p1 p3
  rw [List.zip_append (by rw [calls_length])] at p1
  obtain ⟨a, b, q1, q2, rfl⟩ : ∃ a b, List.Forall₂ (fun e part => Wrote depth.toNat e.1 e.2 part) ((frames.map WavCall.pushFrame).zip (w.calls H (frames.map .pushFrame)).1) a ∧
      b = [] ∧ parts = a ++ [b] := by
    generalize (frames.map WavCall.pushFrame).zip (w.calls H (frames.map .pushFrame)).1 = z at p1
    have t1 := List.forall₂_take z.length p1
    have t2 := List.forall₂_drop z.length p1
    rw [List.take_left] at t1
    rw [List.drop_left] at t2
    generalize ht : parts.drop z.length = t at t2
    generalize hz : [WavCall.flush].zip [((w.calls H (frames.map .pushFrame)).2.call H .flush).1] = y at t2
    cases t2 with
    | nil => cases hz
    | cons m1 m2 =>
      cases hz
      cases m2
      refine ⟨_, _, t1, ?_, (ht ▸ List.take_append_drop z.length parts).symm⟩
      simp only [hfl] at m1
      cases m1
      rfl
  rw [q2] at p3
  simp only [List.flatten_append, List.flatten_cons, List.flatten_nil, List.append_nil] at p3
  rw [calls_frames] at p3 hfl
  refine ⟨a, ?_, hfl, p3⟩
  clear p1 p2 p3 hfl hdef k2 k3 f1 h hd
  generalize (w.calls H (frames.map .pushFrame)).1 = rs at q1 f2
  induction frames generalizing rs a with
  | nil => simp at q1; subst q1; exact .nil
  | cons x frames ih =>
    cases f2 with
    | cons g1 g2 =>
      rw [List.map_cons, List.zip_cons_cons] at q1
      cases q1 with
      | cons m1 m2 =>
        refine .cons ?_ (ih _ _ m2 g2)
        split
        · next hx =>
          rw [← g1] at hx
          simp only [hx] at m1
          cases m1 with
          | frame _ _ hb => exact hb
        · next hx =>
          rw [← g1] at hx
          generalize hc : WavCall.pushFrame x = c at m1
          cases m1 with
          | refused _ e => rfl
          | frame _ _ hb => exact absurd rfl hx
          | pcm b => cases hc
          | flush => rfl
          | abort => rfl

end Iamf.Props
