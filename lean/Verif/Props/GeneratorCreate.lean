import Verif.Props.GeneratorCalls
/-
  Lemmas for C44: the state of a generator that was just created.
-/
namespace Iamf.Props
open Iamf

variable {L : EncoderLib}

/-- What is assumed about new encoders for the substreams: they hold nothing, and how much they delay only depends on the codec config. -/
structure NewEncoders (C : EncoderSpec L) (newEncoder : CodecObu → Nat → UInt32 → Except Err (Encoder L.State)) (delayOf : CodecObu → UInt32)
    (elements : List (UInt32 × ElementWithData)) : Prop where
  fresh : ∀ x ∈ elements, ∀ c, x.2.codec = some c → ∀ z ∈ x.2.data.labels, Reports (newEncoder c z.2.length z.1) fun e =>
    C.holding z.1 e.inner [] ∧ e.done = [] ∧ e.finished = false ∧ e.delay = delayOf c

/-- A new encoder. -/
structure Fresh (C : EncoderSpec L) (delay : UInt32) (i : UInt32) (e : Encoder L.State) : Prop where
  holds : C.holding i e.inner []
  done : e.done = []
  finished : e.finished = false
  delay : e.delay = delay

theorem initEncoders_spec {C : EncoderSpec L} {newEncoder : CodecObu → Nat → UInt32 → Except Err (Encoder L.State)} {delayOf : CodecObu → UInt32}
    (c : CodecObu) (subs : SubstreamLabels) (hN : ∀ z ∈ subs, Reports (newEncoder c z.2.length z.1) fun e =>
      C.holding z.1 e.inner [] ∧ e.done = [] ∧ e.finished = false ∧ e.delay = delayOf c) : ∀ (m : IdMap (Encoder L.State)) (order : List UInt32),
    (subs.map Prod.fst).Nodup → Reports (initEncoders newEncoder (some c) subs m order) fun y =>
      (∀ z ∈ subs, z.2 ≠ [] ∧ ∃ e, y.1 z.1 = some e ∧ Fresh C (delayOf c) z.1 e) ∧ (∀ i, i ∉ subs.map Prod.fst → y.1 i = m i) ∧
      (∀ i, i ∈ y.2 ↔ i ∈ order ∨ i ∈ subs.map Prod.fst) ∧ (order.Nodup → y.2.Nodup) := by
  induction subs with
  | nil => intro m order _; exact ⟨fun z hz => (by cases hz), fun _ _ => rfl, fun i => by simp, _root_.id⟩
  | cons z subs ih =>
    intro m order hnd
    obtain ⟨id, ls⟩ := z
    rw [List.map_cons, List.nodup_cons] at hnd
    rw [initEncoders]
    by_cases hlen : ¬ (ls.length = 1 ∨ ls.length = 2)
    · rw [if_pos hlen]; rfl
    rw [if_neg hlen]
    refine Reports.bind (hN (id, ls) (by simp)) fun e he => ?_
    refine Reports.mono (ih (fun z hz => hN z (by simp [hz])) (m.set id e) (if id ∈ order then order else order ++ [id]) hnd.2) ?_
    rintro ⟨m', order'⟩ ⟨h1, h2, h3, h4⟩
    simp only at h1 h2 h3 h4 hnd ⊢
    refine ⟨fun z hz => ?_, fun i hi => ?_, fun i => ?_, fun hno => h4 ?_⟩
    · rcases List.mem_cons.mp hz with rfl | hz
      · refine ⟨fun hc => ?_, e, ?_, he.1, he.2.1, he.2.2.1, he.2.2.2⟩
        · simp only at hc
          rw [hc] at hlen
          simp at hlen
        · show m' id = some e
          rw [h2 id hnd.1]
          exact if_pos rfl
      · exact h1 z hz
    · rw [List.map_cons, List.mem_cons, not_or] at hi
      rw [h2 i hi.2]
      exact if_neg hi.1
    · rw [h3 i, List.map_cons, List.mem_cons]
      by_cases ho : id ∈ order
      · rw [if_pos ho]
        constructor
        · rintro (h | h)
          · exact .inl h
          · exact .inr (.inr h)
        · rintro (h | rfl | h)
          · exact .inl h
          · exact .inl ho
          · exact .inr h
      · rw [if_neg ho, List.mem_append, List.mem_singleton]
        constructor
        · rintro ((h | h) | h)
          · exact .inl h
          · exact .inr (.inl h)
          · exact .inr (.inr h)
        · rintro (h | h | h)
          · exact .inl (.inl h)
          · exact .inl (.inr h)
          · exact .inr h
    · split
      · exact hno
      next ho =>
        rw [List.nodup_append]
        refine ⟨hno, by simp, fun a ha b hb => ?_⟩
        rw [List.mem_singleton] at hb
        rintro rfl
        exact ho (hb ▸ ha)

/-- The substreams of an audio element. -/
def idsOf (e : ElementWithData) : List UInt32 := e.data.labels.map Prod.fst

theorem initAllEncoders_spec {C : EncoderSpec L} {newEncoder : CodecObu → Nat → UInt32 → Except Err (Encoder L.State)} {delayOf : CodecObu → UInt32}
    {elements : List (UInt32 × ElementWithData)} (hN : NewEncoders C newEncoder delayOf elements) (hkeys : (elements.map Prod.fst).Nodup)
    (hids : (elements.flatMap fun x => idsOf x.2).Nodup) (hcodec : ∀ x ∈ elements, ∃ c, x.2.codec = some c) (as : List FrameMetadata) :
    ∀ (m : IdMap (Encoder L.State)) (order : List UInt32), (as.map FrameMetadata.element).Nodup →
    Reports (initAllEncoders newEncoder elements as m order) fun y =>
      (∀ a ∈ as, ∃ e c, (a.element, e) ∈ elements ∧ e.codec = some c ∧
        ∀ z ∈ e.data.labels, z.2 ≠ [] ∧ ∃ x, y.1 z.1 = some x ∧ Fresh C (delayOf c) z.1 x) ∧
      (∀ i, (∀ x ∈ elements, x.1 ∈ as.map FrameMetadata.element → i ∉ idsOf x.2) → y.1 i = m i) ∧
      (∀ i, i ∈ y.2 ↔ i ∈ order ∨ ∃ x ∈ elements, x.1 ∈ as.map FrameMetadata.element ∧ i ∈ idsOf x.2) ∧ (order.Nodup → y.2.Nodup) := by
  have uniq : ∀ x ∈ elements, ∀ x' ∈ elements, ∀ i, i ∈ idsOf x.2 → i ∈ idsOf x'.2 → x = x' := by
    clear * - hids
    induction elements with
    | nil => intro x hx; cases hx
    | cons z es ih =>
      rw [List.flatMap_cons, List.nodup_append] at hids
      intro x hx x' hx' i hi hi'
      rcases List.mem_cons.mp hx with e | h1 <;> rcases List.mem_cons.mp hx' with e' | h1'
      · rw [e, e']
      · subst e; exact absurd rfl (hids.2.2 i hi i (List.mem_flatMap.mpr ⟨x', h1', hi'⟩))
      · subst e'; exact absurd rfl (hids.2.2 i hi' i (List.mem_flatMap.mpr ⟨x, h1, hi⟩))
      · exact ih hids.2.1 x h1 x' h1' i hi hi'
  have part : ∀ x ∈ elements, (idsOf x.2).Nodup := by
    clear * - hids
    induction elements with
    | nil => intro x hx; cases hx
    | cons z es ih =>
      rw [List.flatMap_cons, List.nodup_append] at hids
      intro x hx
      rcases List.mem_cons.mp hx with rfl | hx
      · exact hids.1
      · exact ih hids.2.1 x hx
  induction as with
  | nil => intro m order _; exact ⟨fun a ha => (by cases ha), fun _ _ => rfl, fun i => by simp, _root_.id⟩
  | cons a as ih =>
    intro m order hnd
    rw [List.map_cons, List.nodup_cons] at hnd
    rw [initAllEncoders]
    cases hl : elements.lookup a.element with
    | none => rfl
    | some e =>
      have hx : (a.element, e) ∈ elements := by
        clear * - hl
        induction elements with
        | nil => cases hl
        | cons x es ih =>
          obtain ⟨j, b⟩ := x
          rw [List.lookup_cons] at hl
          split at hl
          next he =>
            rw [beq_iff_eq] at he
            rw [Option.some.injEq] at hl
            rw [he, ← hl]; simp
          · exact List.mem_cons_of_mem _ (ih hl)
      obtain ⟨c, hc⟩ := hcodec _ hx
      simp only at hc ⊢
      rw [hc]
      refine Reports.bind (initEncoders_spec c e.data.labels (hN.fresh _ hx c hc) m order (part _ hx)) ?_
      rintro ⟨m1, o1⟩ ⟨k1, k2, k3, k4⟩
      refine Reports.mono (ih m1 o1 hnd.2) ?_
      rintro ⟨m2, o2⟩ ⟨h1, h2, h3, h4⟩
      simp only at k1 k2 k3 k4 h1 h2 h3 h4 ⊢
      refine ⟨fun a' ha' => ?_, fun i hi => ?_, fun i => ?_, fun hno => h4 (k4 hno)⟩
      · rcases List.mem_cons.mp ha' with rfl | ha'
        · refine ⟨e, c, hx, hc, fun z hz => ⟨(k1 z hz).1, ?_⟩⟩
          rw [h2 z.1 ?_]
          · exact (k1 z hz).2
          · intro x' hx' hm hi
            have hi0 : z.1 ∈ idsOf e := List.mem_map_of_mem (f := Prod.fst) hz
            have := uniq x' hx' _ hx z.1 hi hi0
            rw [this] at hm
            exact hnd.1 hm
        · exact h1 a' ha'
      · rw [h2 i fun x' hx' hm => hi x' hx' (by simp only [List.map_cons, List.mem_cons]; exact .inr hm)]
        refine k2 i ?_
        exact hi _ hx (by simp)
      · rw [h3 i, k3 i]
        constructor
        · rintro ((h | h) | ⟨x', hx', hm, hi⟩)
          · exact .inl h
          · exact .inr ⟨_, hx, by simp, h⟩
          · exact .inr ⟨x', hx', by simp only [List.map_cons, List.mem_cons]; exact .inr hm, hi⟩
        · rintro (h | ⟨x', hx', hm, hi⟩)
          · exact .inl (.inl h)
          · rw [List.map_cons, List.mem_cons] at hm
            rcases hm with hm | hm
            · have := eq_of_nodup_map (f := Prod.fst) hkeys hx' hx hm
              rw [this] at hi
              exact .inl (.inr hi)
            · exact .inr ⟨x', hx', hm, hi⟩

theorem maxDelay_spec (m : IdMap (Encoder L.State)) (is : List UInt32) : ∀ d : UInt32, d ≤ maxDelay m is d ∧
    (∀ i ∈ is, ∀ e, m i = some e → e.delay ≤ maxDelay m is d) ∧ (maxDelay m is d = d ∨ ∃ i ∈ is, ∃ e, m i = some e ∧ maxDelay m is d = e.delay) := by
  induction is with
  | nil => intro d; exact ⟨UInt32.le_refl d, fun i hi => (by cases hi), .inl rfl⟩
  | cons i is ih =>
    intro d
    obtain ⟨d', hd'⟩ : ∃ d', d' = (match m i with
      | none => d
      | some e => if d < e.delay then e.delay else d) := ⟨_, rfl⟩
    have hmd : maxDelay m (i :: is) d = maxDelay m is d' := by
      rw [maxDelay, hd']
      cases m i <;> rfl
    rw [hmd]
    obtain ⟨h1, h2, h3⟩ := ih d'
    have h4 : d ≤ d' ∧ (∀ e, m i = some e → e.delay ≤ d') ∧ (d' = d ∨ ∃ e, m i = some e ∧ d' = e.delay) := by
      cases hm : m i with
      | none => rw [hm] at hd'; subst hd'; exact ⟨UInt32.le_refl d', fun e he => (by cases he), .inl rfl⟩
      | some e =>
        rw [hm] at hd'
        simp only at hd'
        by_cases hlt : d < e.delay
        · rw [if_pos hlt] at hd'
          subst hd'
          exact ⟨UInt32.le_of_lt hlt, fun e' he' => by rw [Option.some.injEq] at he'; rw [he']; exact UInt32.le_refl _, .inr ⟨e, rfl, rfl⟩⟩
        · rw [if_neg hlt] at hd'
          subst hd'
          exact ⟨UInt32.le_refl _, fun e' he' => by rw [Option.some.injEq] at he'; rw [← he']; exact UInt32.not_lt.mp hlt, .inl rfl⟩
    refine ⟨UInt32.le_trans h4.1 h1, fun j hj e he => ?_, ?_⟩
    · rcases List.mem_cons.mp hj with rfl | hj
      · exact UInt32.le_trans (h4.2.1 e he) h1
      · exact h2 j hj e he
    · rcases h3 with h3 | ⟨j, hj, e, he, h3⟩
      · rw [h3]
        rcases h4.2.2 with h5 | ⟨e, he, h5⟩
        · exact .inl h5
        · exact .inr ⟨i, by simp, e, he, h5⟩
      · exact .inr ⟨j, by simp [hj], e, he, h3⟩

theorem initSubstreams_spec {C : EncoderSpec L} {delay n dl userStart : UInt32} (hn : 0 < n.toNat) (hdl : dl ≤ delay) (inc : Bool)
    {encoders : IdMap (Encoder L.State)} (subs : SubstreamLabels) : ∀ (m : IdMap SubstreamData), (subs.map Prod.fst).Nodup →
    (∀ z ∈ subs, z.2 ≠ [] ∧ m z.1 = none ∧ ∃ e, encoders z.1 = some e ∧ Fresh C dl z.1 e) →
    Reports (initSubstreams delay n inc userStart encoders subs m) fun m' =>
      (∀ z ∈ subs, ∃ d, m' z.1 = some d ∧
        Cell n.toNat z.2 (fun _ => List.replicate delay.toNat 0) (fun _ => List.replicate (delay.toNat - dl.toNat) 0) 0 delay d) ∧
      (∀ i, i ∉ subs.map Prod.fst → m' i = m i) ∧ (subs ≠ [] → inc = true → delay ≤ userStart) := by
  induction subs with
  | nil => intro m _ _; exact ⟨fun z hz => (by cases hz), fun _ _ => rfl, fun hc => absurd rfl hc⟩
  | cons z subs ih =>
    intro m hnd hz
    obtain ⟨id, ls⟩ := z
    rw [List.map_cons, List.nodup_cons] at hnd
    simp only at hnd
    obtain ⟨hls, hm, e, he, hfresh⟩ := hz (id, ls) (by simp)
    simp only at hls hm he
    rw [initSubstreams]
    by_cases hu : inc = true ∧ userStart < delay
    · rw [if_pos hu]; rfl
    rw [if_neg hu, hm]
    simp only [Option.getD_none]
    have hpos : 0 < ls.length := List.length_pos_iff.mpr hls
    have mk : ∀ {S : Type} (zero : S) (k : Nat), ∃ f : SubstreamFrames S, (SubstreamFrames.create ls.length n.toNat).padZeros zero k = .ok f ∧
        Holds f (ls.map fun _ => List.replicate k zero) ∧ f.perFrame = n.toNat := by
      intro S zero k
      have h0 := holds_create (S := S) ls.length n.toNat hn
      have hch : (SubstreamFrames.create ls.length n.toNat : SubstreamFrames S).channels = ls.length := by
        rw [← h0.len]; simp
      have hper : (SubstreamFrames.create ls.length n.toNat : SubstreamFrames S).perFrame = n.toNat := rfl
      obtain ⟨f, h1, h2, h3, -⟩ := holds_pad h0 (by rw [hch]; exact hpos) zero k ⟨0, fun q hq => by rw [(List.mem_replicate.mp hq).2]; rfl⟩
      refine ⟨f, h1, ?_, h3.trans hper⟩
      rw [List.map_replicate, List.nil_append] at h2
      rw [List.map_const']
      exact h2
    obtain ⟨f, hf1, hf2, hf3⟩ := mk (S := Rat) 0 delay.toNat
    rw [hf1]
    simp only [bind, Except.bind, he]
    rw [if_neg (by rw [hfresh.delay]; exact UInt32.not_lt.mpr hdl), hfresh.delay]
    obtain ⟨q, hq1, hq2, hq3⟩ := mk (S := Int32) 0 (delay - dl).toNat
    rw [hq1]
    have hsub : (delay - dl).toNat = delay.toNat - dl.toNat := by
      rw [UInt32.toNat_sub_of_le _ _ hdl]
    rw [hsub] at hq2
    refine Reports.mono (ih (m.set id ⟨f, q, 0, delay⟩) hnd.2 fun z hz' => ?_) ?_
    · obtain ⟨h1, h2, h3⟩ := hz z (by simp [hz'])
      refine ⟨h1, ?_, h3⟩
      show (if z.1 = id then _ else _) = _
      rw [if_neg, h2]
      rintro rfl
      exact hnd.1 (List.mem_map_of_mem (f := Prod.fst) hz')
    · rintro m' ⟨h1, h2, h3⟩
      refine ⟨fun z hz' => ?_, fun i hi => ?_, fun _ hi => ?_⟩
      · rcases List.mem_cons.mp hz' with rfl | hz'
        · refine ⟨_, (h2 id hnd.1).trans (if_pos rfl), hf2, hq2, hf3, hq3, rfl, rfl⟩
        · exact h1 z hz'
      · rw [List.map_cons, List.mem_cons, not_or] at hi
        rw [h2 i hi.2]
        exact if_neg hi.1
      · refine UInt32.not_lt.mp fun hc => hu ⟨hi, hc⟩

theorem initTrimming_spec (t : TrimmingState) (subs : SubstreamLabels) : ∀ m : IdMap TrimmingState, (∀ z ∈ subs, initTrimming t subs m z.1 = some t) ∧
    ∀ i, i ∉ subs.map Prod.fst → initTrimming t subs m i = m i := by
  induction subs with
  | nil => intro m; exact ⟨fun z hz => (by cases hz), fun _ _ => rfl⟩
  | cons z subs ih =>
    intro m
    obtain ⟨id, ls⟩ := z
    rw [initTrimming]
    obtain ⟨h1, h2⟩ := ih (m.set id t)
    refine ⟨fun z hz => ?_, fun i hi => ?_⟩
    · by_cases hin : z.1 ∈ subs.map Prod.fst
      · obtain ⟨z', hz', he⟩ := List.mem_map.mp hin
        rw [← he]; exact h1 z' hz'
      · rw [h2 z.1 hin]
        rcases List.mem_cons.mp hz with rfl | hz
        · exact if_pos rfl
        · exact absurd (List.mem_map_of_mem (f := Prod.fst) hz) hin
    · rw [List.map_cons, List.mem_cons, not_or] at hi
      rw [h2 i hi.2]
      exact if_neg hi.1

theorem fillLabels_spec (ls : List Label) : ∀ out, Reports (fillLabels ls out) fun r => r = out ++ ls := by
  induction ls with
  | nil => intro out; exact (List.append_nil _).symm
  | cons l ls ih =>
    intro out
    rw [fillLabels]
    split
    · rfl
    · refine Reports.mono (ih _) fun r hr => ?_
      rw [hr, List.append_assoc, List.singleton_append]

/-- What every substream is to be trimmed by, at first. -/
def firstTrim (first : FrameMetadata) (delay : UInt32) : TrimmingState :=
  ⟨!first.endIncludesPadding, first.trimEnd.toNat, first.trimStart.toNat + (if first.startIncludesDelay then 0 else delay.toNat)⟩

theorem initElements_spec {C : EncoderSpec L} {delayOf : CodecObu → UInt32} {elements : List (UInt32 × ElementWithData)}
    (hkeys : (elements.map Prod.fst).Nodup) (hids : (elements.flatMap fun x => idsOf x.2).Nodup) (first : FrameMetadata) {delay : UInt32}
    {encoders : IdMap (Encoder L.State)} (downMixing : IdMap DownmixingConfig) (parameters : ParametersManager)
    (hel : ∀ x ∈ elements, ∃ c, x.2.codec = some c ∧ 0 < c.config.numSamplesPerFrame.toNat ∧ delayOf c ≤ delay ∧ x.2.data.labels ≠ [] ∧
      ∀ z ∈ x.2.data.labels, z.2 ≠ [] ∧ ∃ e, encoders z.1 = some e ∧ Fresh C (delayOf c) z.1 e) (as : List FrameMetadata) :
    ∀ (labels : IdMap (List Label)) (data : IdMap SubstreamData) (trimming : IdMap TrimmingState), (as.map FrameMetadata.element).Nodup →
    (∀ a ∈ as, labels a.element = none) → (∀ a ∈ as, ∀ x ∈ elements, x.1 = a.element → ∀ z ∈ x.2.data.labels, data z.1 = none) →
    Reports (initElements elements first delay encoders downMixing parameters as labels data trimming) fun y =>
      (∀ a ∈ as, y.1 a.element = some a.labels ∧ a.element ∈ elements.map Prod.fst ∧ (first.startIncludesDelay = true → delay ≤ first.trimStart) ∧
        ∀ x ∈ elements, x.1 = a.element → ∀ c, x.2.codec = some c → ∀ z ∈ x.2.data.labels, (∃ d, y.2.1 z.1 = some d ∧
          Cell c.config.numSamplesPerFrame.toNat z.2 (fun _ => List.replicate delay.toNat 0)
            (fun _ => List.replicate (delay.toNat - (delayOf c).toNat) 0) 0 delay d) ∧ y.2.2 z.1 = some (firstTrim first delay)) ∧
      (∀ i, i ∉ as.map FrameMetadata.element → y.1 i = labels i) ∧
      ∀ i, (∀ x ∈ elements, x.1 ∈ as.map FrameMetadata.element → i ∉ idsOf x.2) → y.2.1 i = data i ∧ y.2.2 i = trimming i := by
  have uniq : ∀ x ∈ elements, ∀ x' ∈ elements, ∀ i, i ∈ idsOf x.2 → i ∈ idsOf x'.2 → x = x' := by
    clear * - hids
    induction elements with
    | nil => intro x hx; cases hx
    | cons z es ih =>
      rw [List.flatMap_cons, List.nodup_append] at hids
      intro x hx x' hx' i hi hi'
      rcases List.mem_cons.mp hx with e | h1 <;> rcases List.mem_cons.mp hx' with e' | h1'
      · rw [e, e']
      · subst e; exact absurd rfl (hids.2.2 i hi i (List.mem_flatMap.mpr ⟨x', h1', hi'⟩))
      · subst e'; exact absurd rfl (hids.2.2 i hi' i (List.mem_flatMap.mpr ⟨x, h1, hi⟩))
      · exact ih hids.2.1 x h1 x' h1' i hi hi'
  have part : ∀ x ∈ elements, (idsOf x.2).Nodup := by
    clear * - hids
    induction elements with
    | nil => intro x hx; cases hx
    | cons z es ih =>
      rw [List.flatMap_cons, List.nodup_append] at hids
      intro x hx
      rcases List.mem_cons.mp hx with rfl | hx
      · exact hids.1
      · exact ih hids.2.1 x hx
  induction as with
  | nil => intro labels data trimming _ _ _; exact ⟨fun a ha => (by cases ha), fun _ _ => rfl, fun _ _ => ⟨rfl, rfl⟩⟩
  | cons a as ih =>
    intro labels data trimming hnd hlab hdat
    rw [List.map_cons, List.nodup_cons] at hnd
    rw [initElements]
    rw [hlab a (by simp)]
    refine Reports.bind (fillLabels_spec a.labels _) fun ls hls => ?_
    simp only [Option.getD_none, List.nil_append] at hls
    subst hls
    cases hl : elements.lookup a.element with
    | none => rfl
    | some e =>
      have hx : (a.element, e) ∈ elements := by
        clear * - hl
        induction elements with
        | nil => cases hl
        | cons x es ih =>
          obtain ⟨j, b⟩ := x
          rw [List.lookup_cons] at hl
          split at hl
          next he =>
            rw [beq_iff_eq] at he
            rw [Option.some.injEq] at hl
            rw [he, ← hl]; simp
          · exact List.mem_cons_of_mem _ (ih hl)
      obtain ⟨c, hc, hn, hdl, hsubs, hz⟩ := hel _ hx
      simp only at hc hsubs hz ⊢
      rw [hc]
      simp only
      split
      · rfl
      refine Reports.bind (initSubstreams_spec (C := C) (userStart := a.trimStart) hn hdl a.startIncludesDelay e.data.labels data (part _ hx) fun z hzm =>
        ⟨(hz z hzm).1, hdat a (by simp) _ hx rfl z hzm, (hz z hzm).2⟩) ?_
      rintro data1 ⟨d1, d2, d3⟩
      split
      · rfl
      split
      · rfl
      next hsame =>
        have same : a.trimEnd = first.trimEnd ∧ a.trimStart = first.trimStart ∧ a.endIncludesPadding = first.endIncludesPadding ∧
            a.startIncludesDelay = first.startIncludesDelay := by
          refine ⟨?_, ?_, ?_, ?_⟩ <;> refine Decidable.byContradiction fun hcon => hsame ?_
          · exact .inl hcon
          · exact .inr (.inl hcon)
          · exact .inr (.inr (.inl hcon))
          · exact .inr (.inr (.inr hcon))
        have ht : (⟨!a.endIncludesPadding, first.trimEnd.toNat, first.trimStart.toNat + (if first.startIncludesDelay then 0 else delay.toNat)⟩ : TrimmingState) =
            firstTrim first delay := by
          unfold firstTrim
          rw [same.2.2.1]
        have ht' := initTrimming_spec (firstTrim first delay) e.data.labels trimming
        rw [ht]
        have hne : ∀ a' ∈ as, a'.element ≠ a.element := fun a' ha' hc => hnd.1 (hc ▸ List.mem_map_of_mem (f := FrameMetadata.element) ha')
        refine Reports.mono (ih (labels.set a.element a.labels) data1 (initTrimming (firstTrim first delay) e.data.labels trimming) hnd.2
          (fun a' ha' => ?_) (fun a' ha' x' hx' hxa z hzm => ?_)) ?_
        · show (if a'.element = a.element then _ else _) = _
          rw [if_neg (hne a' ha'), hlab a' (by simp [ha'])]
        · rw [d2 z.1 ?_]
          · exact hdat a' (by simp [ha']) x' hx' hxa z hzm
          · intro hc
            have := uniq x' hx' _ hx z.1 (List.mem_map_of_mem (f := Prod.fst) hzm) hc
            rw [this] at hxa
            exact hne a' ha' hxa.symm
        · rintro ⟨lab2, data2, trim2⟩ ⟨h1, h2, h3⟩
          simp only at h1 h2 h3 ⊢
          refine ⟨fun a' ha' => ?_, fun i hi => ?_, fun i hi => ?_⟩
          · rcases List.mem_cons.mp ha' with rfl | ha'
            · refine ⟨(h2 _ hnd.1).trans (if_pos rfl), List.mem_map_of_mem (f := Prod.fst) hx, fun hinc => ?_, fun x' hx' hxa c' hc' z hzm => ?_⟩
              · rw [← same.2.1]
                exact d3 hsubs (same.2.2.2.trans hinc)
              · have hxe := eq_of_nodup_map (f := Prod.fst) hkeys hx' hx hxa
                subst hxe
                simp only at hc' hzm
                rw [hc, Option.some.injEq] at hc'
                subst hc'
                have hout := h3 z.1 fun x2 hx2 hm2 hi2 => by
                  have := uniq x2 hx2 _ hx z.1 hi2 (List.mem_map_of_mem (f := Prod.fst) hzm)
                  rw [this] at hm2
                  exact hnd.1 hm2
                rw [hout.1, hout.2]
                exact ⟨d1 z hzm, ht'.1 z hzm⟩
            · exact h1 a' ha'
          · rw [List.map_cons, List.mem_cons, not_or] at hi
            rw [h2 i hi.2]
            exact if_neg hi.1
          · have hout := h3 i fun x2 hx2 hm2 => hi x2 hx2 (by simp only [List.map_cons, List.mem_cons]; exact .inr hm2)
            have hi0 := hi _ hx (by simp)
            rw [hout.1, hout.2]
            exact ⟨d2 i hi0, ht'.2 i hi0⟩

/-! ### What a generator is created for -/

/-- How much the encoders of an audio element delay. -/
def delayAt (delayOf : CodecObu → UInt32) (elements : List (UInt32 × ElementWithData)) (i : UInt32) : Nat := match elements.lookup i with
  | none => 0
  | some e => match e.codec with
    | none => 0
    | some c => (delayOf c).toNat

/-- The labels that are listed for an audio element. -/
def listedLabels (metadata : List FrameMetadata) (i : UInt32) : Option (List Label) :=
  (metadata.find? fun a => a.element = i).map FrameMetadata.labels

def worldOf (linear : Int16 → Rat) (delayOf : CodecObu → UInt32) (metadata : List FrameMetadata) (first : FrameMetadata)
    (elements : List (UInt32 × ElementWithData)) (downMixing : IdMap DownmixingConfig) (order : List UInt32) (delay : UInt32)
    (added : BlockWithData → Prop) : World where
  elements := elements
  labels := listedLabels metadata
  downMixing := downMixing
  order := order
  delay := delay.toNat
  start i := delay.toNat - delayAt delayOf elements i
  userEnd := first.trimEnd.toNat
  startTotal := first.trimStart.toNat + (if first.startIncludesDelay then 0 else delay.toNat)
  addPadding := !first.endIncludesPadding
  linear := linear
  added := added

/-- What the caller has prepared: audio elements with different ids and substreams, metadata for each, down-mixing for each, a manager of the
parameters that was just created, and a module for the timestamps at time 0. -/
structure Prepared (C : EncoderSpec L) (newEncoder : CodecObu → Nat → UInt32 → Except Err (Encoder L.State)) (delayOf : CodecObu → UInt32)
    (metadata : List FrameMetadata) (elements : List (UInt32 × ElementWithData)) (downMixing : IdMap DownmixingConfig) (parameters : ParametersManager)
    (timing : TimingModule) : Prop where
  encoders : NewEncoders C newEncoder delayOf elements
  some_metadata : metadata ≠ []
  once : (metadata.map FrameMetadata.element).Nodup
  all : ∀ x ∈ elements, x.1 ∈ metadata.map FrameMetadata.element
  some_label : ∀ a ∈ metadata, a.labels ≠ []
  keys : (elements.map Prod.fst).Nodup
  ids : (elements.flatMap fun x => idsOf x.2).Nodup
  element : ∀ x ∈ elements, ∃ c, x.2.codec = some c ∧ 0 < c.config.numSamplesPerFrame.toNat ∧ x.2.data.labels ≠ [] ∧
    (∃ cfg, downMixing x.1 = some cfg ∧ cfg.substreams = x.2.data.labels ∧ ∀ d ∈ cfg.mixers, d.inputs ≠ []) ∧
    ∀ a ∈ metadata, a.trimStart.toNat + (delayOf c).toNat < 4294967296
  stamps : ∀ x ∈ elements, ∀ i ∈ idsOf x.2, ∃ r, timing.frames.lookup i = some ⟨r, 0⟩
  created : ParametersManager.create (elements.map fun x => (x.1, x.2.obu)) = .ok parameters

/-- Nothing has happened. -/
def History.start : History := ⟨fun _ => [], fun _ => [], fun _ => [], fun _ _ => [], fun _ => 0⟩

theorem listed_of {metadata : List FrameMetadata} (h : (metadata.map FrameMetadata.element).Nodup) {a : FrameMetadata} (ha : a ∈ metadata) :
    listedLabels metadata a.element = some a.labels := by
  unfold listedLabels
  induction metadata with
  | nil => cases ha
  | cons b bs ih =>
    rw [List.map_cons, List.nodup_cons] at h
    rcases List.mem_cons.mp ha with rfl | ha
    · simp
    · have hne : b.element ≠ a.element := fun hc => h.1 (hc ▸ List.mem_map_of_mem (f := FrameMetadata.element) ha)
      rw [List.find?_cons_of_neg (by simpa using hne)]
      exact ih h.2 ha

theorem not_listed {metadata : List FrameMetadata} {i : UInt32} (h : i ∉ metadata.map FrameMetadata.element) : listedLabels metadata i = none := by
  unfold listedLabels
  rw [List.find?_eq_none.mpr, Option.map_none]
  intro a ha hc
  simp only [decide_eq_true_eq] at hc
  exact h (hc ▸ List.mem_map_of_mem (f := FrameMetadata.element) ha)

theorem create_spec {C : EncoderSpec L} {newEncoder : CodecObu → Nat → UInt32 → Except Err (Encoder L.State)} {delayOf : CodecObu → UInt32}
    {metadata : List FrameMetadata} {elements : List (UInt32 × ElementWithData)} {downMixing : IdMap DownmixingConfig} {parameters : ParametersManager}
    {timing : TimingModule} (h : Prepared C newEncoder delayOf metadata elements downMixing parameters timing) (linear : Int16 → Rat)
    (added : BlockWithData → Prop) :
    Reports (FrameGenerator.create newEncoder metadata elements downMixing parameters timing) fun g =>
      (∀ x ∈ elements, ∀ c, x.2.codec = some c → delayOf c ≤ g.delay) ∧ (g.delay = 0 ∨ ∃ x ∈ elements, ∃ c, x.2.codec = some c ∧ g.delay = delayOf c) ∧
      g.phase = .taking ∧ g.parameters = parameters ∧ ∀ first ∈ metadata.head?, (first.startIncludesDelay = true → g.delay ≤ first.trimStart) ∧
      Sane (worldOf linear delayOf metadata first elements downMixing g.order g.delay added) ∧
      ∀ b, (∀ x ∈ elements, first.trimEnd.toNat + (frameSizeOf x.2).toNat * (b + 1) < 4294967296) →
        Inv C (worldOf linear delayOf metadata first elements downMixing g.order g.delay added) g History.start (fun _ => []) b := by
  cases hmeta : metadata with
  | nil => exact absurd hmeta h.some_metadata
  | cons first rest =>
    rw [FrameGenerator.create, ← hmeta]
    refine Reports.bind (initAllEncoders_spec h.encoders h.keys h.ids (fun x hx => (h.element x hx).imp fun c hc => hc.1) metadata .empty [] h.once) ?_
    rintro ⟨encoders, order⟩ ⟨k1, -, k3, k4⟩
    simp only at k1 k3 k4 ⊢
    obtain ⟨m1, m2, m3⟩ := maxDelay_spec encoders order 0
    obtain ⟨delay, hdelay⟩ : ∃ delay, delay = maxDelay encoders order 0 := ⟨_, rfl⟩
    rw [← hdelay] at m1 m2 m3 ⊢
    have horder : ∀ i, i ∈ order ↔ i ∈ elements.flatMap fun x => idsOf x.2 := by
      intro i
      rw [k3 i, List.mem_flatMap]
      constructor
      · rintro (hc | ⟨x, hx, -, hi⟩)
        · cases hc
        · exact ⟨x, hx, hi⟩
      · rintro ⟨x, hx, hi⟩
        exact .inr ⟨x, hx, h.all x hx, hi⟩
    have hel : ∀ x ∈ elements, ∃ c, x.2.codec = some c ∧ 0 < c.config.numSamplesPerFrame.toNat ∧ delayOf c ≤ delay ∧ x.2.data.labels ≠ [] ∧
        ∀ z ∈ x.2.data.labels, z.2 ≠ [] ∧ ∃ e, encoders z.1 = some e ∧ Fresh C (delayOf c) z.1 e := by
      intro x hx
      obtain ⟨c, hc, hn, hs, -, -⟩ := h.element x hx
      obtain ⟨a, ha, hae⟩ := List.mem_map.mp (h.all x hx)
      obtain ⟨e, c', he, hc', hz⟩ := k1 a ha
      have hxe := eq_of_nodup_map (f := Prod.fst) h.keys he hx (by simpa using hae)
      subst hxe
      simp only at hc hs ⊢
      rw [hc, Option.some.injEq] at hc'
      subst hc'
      refine ⟨c, hc, hn, ?_, hs, hz⟩
      obtain ⟨z, hzm⟩ := List.exists_mem_of_ne_nil _ hs
      obtain ⟨-, y, hy, hf⟩ := hz z hzm
      rw [← hf.delay]
      exact m2 z.1 ((horder z.1).mpr (List.mem_flatMap.mpr ⟨_, hx, List.mem_map_of_mem (f := Prod.fst) hzm⟩)) y hy
    have hmax : delay = 0 ∨ ∃ x ∈ elements, ∃ c, x.2.codec = some c ∧ delay = delayOf c := by
      rcases m3 with m3 | ⟨i, hi, e, he, hd⟩
      · exact .inl m3
      · right
        obtain ⟨x, hx, hix⟩ := List.mem_flatMap.mp ((horder i).mp hi)
        obtain ⟨z, hz, hzi⟩ := List.mem_map.mp hix
        obtain ⟨c, hc, -, -, -, hall⟩ := hel x hx
        obtain ⟨-, e', he', hf⟩ := hall z hz
        rw [hzi, he, Option.some.injEq] at he'
        subst he'
        exact ⟨x, hx, c, hc, hd.trans hf.delay⟩
    refine Reports.bind (initElements_spec (C := C) (delayOf := delayOf) h.keys h.ids first downMixing parameters hel metadata .empty .empty .empty h.once
      (fun _ _ => rfl) (fun _ _ _ _ _ _ _ => rfl)) ?_
    rintro ⟨labels, data, trimming⟩ ⟨q1, q2, q3⟩
    simp only at q1 q2 q3
    have hfirst : first ∈ metadata := by rw [hmeta]; simp
    obtain ⟨qf1, qf2, qf3, -⟩ := q1 first hfirst
    have hon : order ≠ [] := by
      obtain ⟨x, hx, hxe⟩ := List.mem_map.mp qf2
      obtain ⟨c, -, -, -, hs, -⟩ := hel x hx
      obtain ⟨z, hz⟩ := List.exists_mem_of_ne_nil _ hs
      intro hc
      have := (horder z.1).mpr (List.mem_flatMap.mpr ⟨x, hx, List.mem_map_of_mem (f := Prod.fst) hz⟩)
      rw [hc] at this
      cases this
    have hphase : (if order.isEmpty then GeneratorPhase.flushing else GeneratorPhase.taking) = .taking := by
      rw [if_neg]
      simpa using hon
    refine ⟨fun x hx c hc => ?_, hmax, hphase, rfl, fun f hf => ?_⟩
    · obtain ⟨c', hc', -, hd, -⟩ := hel x hx
      rw [hc, Option.some.injEq] at hc'
      subst hc'
      exact hd
    have hff : f = first := by
      rw [hmeta] at hf
      simpa using hf.symm
    subst hff
    obtain ⟨W, hWd⟩ : ∃ W, W = worldOf linear delayOf metadata f elements downMixing order delay added := ⟨_, rfl⟩
    simp only
    rw [← hWd]
    have hlabels : labels = W.labels := by
      funext i
      rw [hWd]
      show labels i = listedLabels metadata i
      by_cases hi : i ∈ metadata.map FrameMetadata.element
      · obtain ⟨a, ha, rfl⟩ := List.mem_map.mp hi
        rw [(q1 a ha).1, listed_of h.once ha]
      · rw [q2 i hi, not_listed hi]; rfl
    have hlookup : ∀ x ∈ elements, ∀ c, x.2.codec = some c → delayAt delayOf elements x.1 = (delayOf c).toNat := by
      intro x hx c hc
      unfold delayAt
      rw [lookup_of_nodup h.keys hx]
      simp only [hc]
    have hstart : f.trimStart.toNat + delay.toNat < 4294967296 := by
      rcases hmax with hz | ⟨x, hx, c, hc, hd⟩
      · rw [hz]
        have := f.trimStart.toNat_lt
        simp only [UInt32.toNat_zero]
        omega
      · obtain ⟨c', hc', -, -, -, hb⟩ := h.element x hx
        rw [hc, Option.some.injEq] at hc'
        subst hc'
        rw [hd]
        exact hb f hfirst
    have hsane : Sane W := by
      rw [hWd]
      refine ⟨h.keys, h.ids, ⟨k4 (by simp), horder⟩, fun x hx => ?_, ?_, ?_⟩
      · obtain ⟨c, hc, hn, hd, hs, hz⟩ := hel x hx
        obtain ⟨c', hc', -, -, hm, -⟩ := h.element x hx
        obtain ⟨a, ha, hae⟩ := List.mem_map.mp (h.all x hx)
        refine ⟨⟨c, hc⟩, by unfold frameSizeOf; rw [hc]; exact hn, hs, fun y hy => (hz y hy).1, ⟨a.labels, ?_, h.some_label a ha⟩, hm, ?_⟩
        · show listedLabels metadata x.1 = _
          rw [← hae, listed_of h.once ha]
        · exact Nat.sub_le _ _
      · show delay.toNat ≤ f.trimStart.toNat + _
        split
        next hinc =>
          have := qf3 hinc
          rw [UInt32.le_iff_toNat_le] at this
          omega
        · omega
      · show f.trimStart.toNat + _ < _
        split
        · omega
        · exact hstart
    refine ⟨qf3, hsane, fun b hb => ?_⟩
    have hstate := created_demix_state h.created (by rw [List.map_map]; exact h.keys) W.added
    have hnf : (if order.isEmpty then GeneratorPhase.flushing else GeneratorPhase.taking) ≠ .flushing := by rw [hphase]; exact nofun
    refine ⟨⟨hlabels, by rw [hWd]; rfl, by rw [hWd]; rfl, by rw [hWd]; rfl, created_params_safe h.created, hstate.1, fun x hx => ?_, fun x hx r hr => (by cases hr), fun x hx y hy => ?_, fun x hx ls hl => ?_,
      fun i => ⟨Nat.le_refl _, fun _ => rfl⟩, fun x hx y hy _ => .inl rfl, fun x hx y hy => rfl, fun x hx y hy f hf => (by cases hf)⟩, ?_, fun x hx hc => absurd hc hnf, fun _ x hx => ?_,
      fun hc => absurd hc hnf, ?_⟩
    · have hx' : x ∈ elements := by rw [hWd] at hx; exact hx
      refine ⟨(hstate.2 x.1 x.2.obu (List.mem_map_of_mem (f := fun x : UInt32 × ElementWithData => (x.1, x.2.obu)) hx')).1, ?_, fun r hr => (by cases hr)⟩
      unfold MixingsFor
      split
      · rfl
      · exact ⟨rfl, trivial⟩
    · have hx' : x ∈ elements := by rw [hWd] at hx; exact hx
      obtain ⟨c, hc, hn, hd, hs, hz⟩ := hel x hx'
      obtain ⟨a, ha, hae⟩ := List.mem_map.mp (h.all x hx')
      obtain ⟨-, e, he, hfr⟩ := hz y hy
      obtain ⟨⟨d, hd1, hd2⟩, htr⟩ := (q1 a ha).2.2.2 x hx' hae.symm c hc y hy
      obtain ⟨r, hr⟩ := h.stamps x hx' y.1 (List.mem_map_of_mem (f := Prod.fst) hy)
      have hn' : (W.spot x).n = c.config.numSamplesPerFrame := by simp [World.spot, frameSizeOf, hc]
      have hdel : (W.spot x).delay = delay.toNat := by rw [hWd]; rfl
      have hst : (W.spot x).start = delay.toNat - (delayOf c).toNat := by
        rw [hWd]
        show delay.toNat - delayAt delayOf elements x.1 = _
        rw [hlookup x hx' c hc]
      refine .opened ⟨⟨d, hd1, ?_⟩, ⟨e, he, hfr.finished, [], [], rfl, hfr.holds, by rw [hfr.done]; exact .nil⟩, ⟨r, ?_⟩, ?_⟩
      · show Cell (W.spot x).n.toNat y.2 (fun l => List.replicate (W.spot x).delay 0) (fun l => List.replicate (W.spot x).start 0) 0
          (UInt32.ofNat ((W.spot x).delay - 0 * (W.spot x).n.toNat)) d
        rw [hn', hdel, hst, Nat.zero_mul, Nat.sub_zero, UInt32.ofNat_toNat]
        exact hd2
      · show timing.frames.lookup y.1 = some ⟨r, ((0 * (W.spot x).n.toNat : Nat) : Int)⟩
        rw [Nat.zero_mul]; exact hr
      · show trimming y.1 = some (W.trim (W.spot x) [] 0)
        rw [htr]
        congr 1
        unfold firstTrim World.trim World.endTotal
        rw [hWd, Nat.zero_mul, Nat.sub_zero]
        have hpads : (Spot.pads ((worldOf linear delayOf metadata f elements downMixing order delay added).spot x) []) = 0 := rfl
        rw [hpads]
        simp only [worldOf, Nat.add_zero, ite_self]
        congr 1
        · simp
    · exact ⟨by simp [IdMap.empty], fun y hy => by simp [IdMap.empty] at hy, fun l _ => rfl⟩
    · intro x hx ls hl k hk
      obtain ⟨ls2, hls2, hne2⟩ := (hsane.element x hx).listed
      rw [hl, Option.some.injEq] at hls2
      subst hls2
      obtain ⟨l1, hl1⟩ := List.exists_mem_of_ne_nil _ hne2
      exact (hk l1 hl1).symm
    · have hx' : x ∈ elements := by rw [hWd] at hx; exact hx
      have := hb x hx'
      have he : W.endTotal (W.spot x) (History.start.rounds x.1) = f.trimEnd.toNat := by
        unfold World.endTotal
        rw [show History.start.rounds x.1 = [] from rfl, show Spot.pads (W.spot x) [] = 0 from rfl, hWd]
        simp [worldOf]
      rw [he]
      exact this
    · intro x hx ls hl
      exact ⟨[], [], rfl, .nil, trivial, fun _ => rfl⟩

end Iamf.Props
