import Verif.Cli.Pipeline
import Verif.Props.MixRender
import Verif.Props.EndToEnd
import Verif.Props.Lpcm
import Verif.Props.Selection
/-
  C41: what is played, from the audio frames of temporal units to samples; for LPCM, what went into the encoder comes out of the decoder.
-/
namespace Iamf.Props
open Iamf

/-! ### Specification -/

/-- The states that rendering temporal units leads to, whether they could be rendered or not. -/
inductive Played (M : GainMath Rat) {C : Codecs} (first : RenderingModels C) : RenderingModels C → Prop where
  | start : Played M first first
  | unit {st : RenderingModels C} (h : Played M first st) (u : OutputUnit) : Played M first (renderUnit M st u).2

/-- The frames of a temporal unit, with the samples that they are decoded to.  If an audio element of the mix presentation is coded as
LPCM, then they are those that the LPCM decoder gives (C37) for each of its substreams. -/
def DecodedTo (elements : List (UInt32 × ElementWithData)) (m : MixPresentation) (frames : List ProcFrame) (fs : List DecodedFrame) : Prop :=
  fs.map Prod.fst = frames ∧
  ∀ f ∈ fs, ∀ s ∈ m.subMixes, ∀ a ∈ s.elements, ∀ e c l labels d, elements.lookup a.id = some e → e.codec = some c →
    c.config.decoderConfig = .lpcm l → f.1.frame.frame.substreamId ∈ e.obu.substreamIds →
    e.data.labels.lookup f.1.frame.frame.substreamId = some labels →
    LpcmDecoder.create l labels.length c.config.numSamplesPerFrame = .ok d → d.decode f.1.frame.frame.audioFrame = .ok f.2

/-- The frame of an audio element, for rendering: the decoded samples of its substreams by channel, with the other channels of its highest
layer (C28), and the samples to trim of the last of its frames. -/
def DemixedTo (e : ElementWithData) (fs : List DecodedFrame) (x : RenderFrame) : Prop :=
  ∃ labels y, elementLabelsToReconstruct e.obu = .ok labels ∧
    _root_.Iamf.demixElement (demixers labels e.data.labels) e.data.labels (fs.map DecodedFrame.input) = .ok (some y) ∧ x.samples = y.samples ∧
    ∃ f ∈ fs, (e.data.labels.lookup f.1.frame.frame.substreamId).isSome = true ∧
      x.trimStart = f.1.frame.header.trimStart ∧ x.trimEnd = f.1.frame.header.trimEnd ∧ x.mixing = f.1.mixing

/-! ### Configuration -/

private theorem except_bind_ok {α β : Type} {x : Except Err α} {f : α → Except Err β} {b : β} (h : (x >>= f) = .ok b) :
    ∃ a, x = .ok a ∧ f a = .ok b := by
  cases x with
  | error e => cases h
  | ok a => exact ⟨a, rfl, h⟩

private theorem lookup_append {α : Type} (i : UInt32) (a b : List (UInt32 × α)) :
    (a ++ b).lookup i = (a.lookup i).or (b.lookup i) := by
  induction a with
  | nil => simp [List.lookup]
  | cons x a ih =>
    obtain ⟨k, v⟩ := x
    simp only [List.cons_append, List.lookup]
    split
    · rfl
    · exact ih

private theorem mem_of_lookup {α : Type} {l : List (UInt32 × α)} {i : UInt32} {a : α} (h : l.lookup i = some a) : (i, a) ∈ l := by
  induction l with
  | nil => simp [List.lookup] at h
  | cons x l ih =>
    obtain ⟨k, v⟩ := x
    simp only [List.lookup] at h
    split at h
    · rename_i hk
      rw [beq_iff_eq] at hk
      simp only [Option.some.injEq] at h
      subst hk h
      exact List.mem_cons_self ..
    · exact List.mem_cons_of_mem _ (ih h)

private theorem lookup_of_mem {α : Type} {l : List (UInt32 × α)} {i : UInt32} {a : α} (hn : (l.map Prod.fst).Nodup) (h : (i, a) ∈ l) :
    l.lookup i = some a := by
  induction l with
  | nil => cases h
  | cons x l ih =>
    obtain ⟨k, v⟩ := x
    simp only [List.map_cons, List.nodup_cons] at hn
    simp only [List.lookup]
    rcases List.mem_cons.mp h with h | h'
    · cases h
      simp
    · have : i ≠ k := by
        rintro rfl
        exact hn.1 (List.mem_map.mpr ⟨(i, a), h', rfl⟩)
      rw [beq_false_of_ne this]
      exact ih hn.2 h'

private theorem initDecoders_ok {C : Codecs} {c : CodecObu} {m : SubstreamLabels} {ds out : List (UInt32 × SubstreamDecoder C)}
    (h : initDecoders C c m ds = .ok out) :
    (∃ new, out = ds ++ new) ∧ ∀ id labels, (id, labels) ∈ m → ∃ n d, substreamChannelCount labels.length = .ok n ∧
      createDecoder C c n = .ok d ∧ out.lookup id = some d := by
  induction m generalizing ds with
  | nil => cases h; exact ⟨⟨[], by simp⟩, fun id labels h => by cases h⟩
  | cons x m ih =>
    obtain ⟨i, ls⟩ := x
    unfold initDecoders at h
    split at h
    · cases h
    rename_i hi
    obtain ⟨n, h1, h⟩ := except_bind_ok h
    obtain ⟨d, h2, h⟩ := except_bind_ok h
    obtain ⟨⟨new, h3⟩, h4⟩ := ih h
    refine ⟨⟨(i, d) :: new, by rw [h3]; simp⟩, fun id labels hm => ?_⟩
    rcases List.mem_cons.mp hm with hm | hm
    · cases hm
      refine ⟨n, d, h1, h2, ?_⟩
      rw [h3, lookup_append, lookup_append]
      have : ds.lookup i = none := Option.not_isSome_iff_eq_none.mp hi
      simp [this, List.lookup]
    · exact h4 id labels hm

/-- What the loop over the audio elements leaves. -/
private theorem configureElements_ok {C : Codecs} {l : List (UInt32 × ElementWithData)} {m r : RenderingModels C}
    (h : configureElements C l m = .ok r) :
    (∃ new, r.relevant = m.relevant ++ new) ∧ (∃ new, r.decoders = m.decoders ++ new) ∧
    (∃ new, r.demixing = m.demixing ++ new ∧ List.Forall₂ (fun x d => createDemixEntry x.1 x.2 = .ok d) l new) ∧
    ∀ i e, (i, e) ∈ l → ∃ c, e.codec = some c ∧ (∀ s ∈ e.obu.substreamIds, s ∈ r.relevant) ∧
      ∀ id labels, (id, labels) ∈ e.data.labels → ∃ n d, substreamChannelCount labels.length = .ok n ∧
        createDecoder C c n = .ok d ∧ r.decoders.lookup id = some d := by
  induction l generalizing m with
  | nil => cases h; exact ⟨⟨[], by simp⟩, ⟨[], by simp⟩, ⟨[], by simp, .nil⟩, fun i e h => by cases h⟩
  | cons x l ih =>
    obtain ⟨i, e⟩ := x
    unfold configureElements at h
    split at h
    · cases h
    rename_i c hc
    obtain ⟨ds, h1, h⟩ := except_bind_ok h
    obtain ⟨y, h2, h⟩ := except_bind_ok h
    obtain ⟨⟨n1, k1⟩, ⟨n2, k2⟩, ⟨n3, k3, k3'⟩, k4⟩ := ih h
    obtain ⟨⟨n4, k5⟩, k6⟩ := initDecoders_ok h1
    refine ⟨⟨e.obu.substreamIds ++ n1, by rw [k1]; simp⟩, ⟨n4 ++ n2, by rw [k2, k5]; simp⟩,
      ⟨y :: n3, by rw [k3]; simp, .cons h2 k3'⟩, fun j e' hj => ?_⟩
    rcases List.mem_cons.mp hj with hj | hj
    · cases hj
      refine ⟨c, hc, fun s hs => by rw [k1]; simp [hs], fun id labels hm => ?_⟩
      obtain ⟨n, d, q1, q2, q3⟩ := k6 id labels hm
      refine ⟨n, d, q1, q2, ?_⟩
      rw [k2, lookup_append]
      simp only
      rw [q3]
      rfl
    · exact k4 j e' hj

/-! ### Histories -/

private theorem setDecoder_lookup {C : Codecs} (id i : UInt32) (d : SubstreamDecoder C) (ds : List (UInt32 × SubstreamDecoder C))
    (h : (ds.lookup id).isSome = true) : (setDecoder id d ds).lookup i = if i = id then some d else ds.lookup i := by
  induction ds with
  | nil => simp [List.lookup] at h
  | cons x ds ih =>
    obtain ⟨k, v⟩ := x
    unfold setDecoder
    split
    · rename_i hk
      subst hk
      simp only [List.lookup]
      split
      · rename_i hi; rw [beq_iff_eq] at hi; rw [if_pos hi]
      · rename_i hi; rw [beq_eq_false_iff_ne] at hi; rw [if_neg hi]
    · rename_i hk
      simp only [List.lookup] at h ⊢
      rw [beq_false_of_ne (fun e => hk e.symm)] at h
      split
      · rename_i hi
        rw [beq_iff_eq] at hi
        subst hi
        rw [if_neg hk]
      · exact ih h

/-- Decoders keep what they are: those for LPCM have no state. -/
private def SameDecoders {C : Codecs} (a b : List (UInt32 × SubstreamDecoder C)) : Prop :=
  ∀ id l, a.lookup id = some (.lpcm l) → b.lookup id = some (.lpcm l)

private theorem decodeFrame_same {C : Codecs} (f : ProcFrame) (ds : List (UInt32 × SubstreamDecoder C)) :
    SameDecoders ds (decodeFrame f ds).2 := by
  intro id l h
  unfold decodeFrame
  cases hd : ds.lookup f.frame.frame.substreamId with
  | none => exact h
  | some d =>
    simp only
    rw [setDecoder_lookup _ _ _ _ (by rw [hd]; rfl)]
    split
    · rename_i hi
      rw [hi, hd] at h
      cases h
      rfl
    · exact h

private theorem same_trans {C : Codecs} {a b c : List (UInt32 × SubstreamDecoder C)} (h : SameDecoders a b) (h' : SameDecoders b c) :
    SameDecoders a c := fun id l q => h' id l (h id l q)

private theorem decodeFrames_spec {C : Codecs} (relevant : List UInt32) (start : Int) (frames : List ProcFrame) (stop : Option Int)
    (ds : List (UInt32 × SubstreamDecoder C)) :
    SameDecoders ds (decodeFrames relevant start frames stop ds).2 ∧
    ∀ fs stop', (decodeFrames relevant start frames stop ds).1 = .ok (fs, stop') → fs.map Prod.fst = frames ∧
      ∀ f ∈ fs, f.1.frame.frame.substreamId ∈ relevant → ∀ l, ds.lookup f.1.frame.frame.substreamId = some (.lpcm l) →
        l.decode f.1.frame.frame.audioFrame = .ok f.2 := by
  induction frames generalizing stop ds with
  | nil => exact ⟨fun id l h => h, fun fs stop' h => by cases h; exact ⟨rfl, fun f hf => by cases hf⟩⟩
  | cons f frames ih =>
    unfold decodeFrames
    split
    · rename_i hr
      have hnr : f.frame.frame.substreamId ∉ relevant := by simpa using hr
      obtain ⟨h1, h2⟩ := ih stop ds
      match hx : decodeFrames relevant start frames stop ds with
      | (.error e, ds') => rw [hx] at h1; exact ⟨h1, fun fs stop' h => by cases h⟩
      | (.ok (r, stop''), ds') =>
        rw [hx] at h1 h2
        refine ⟨h1, fun fs stop' h => ?_⟩
        cases h
        obtain ⟨h3, h4⟩ := h2 _ _ rfl
        refine ⟨by simp [h3], fun g hg hgr => ?_⟩
        rcases List.mem_cons.mp hg with rfl | hg
        · exact absurd hgr hnr
        · exact h4 g hg hgr
    · dsimp only
      split
      · exact ⟨fun id l h => h, fun fs stop' h => by cases h⟩
      · split
        · exact ⟨fun id l h => h, fun fs stop' h => by cases h⟩
        · have hs := decodeFrame_same f ds
          match hx : decodeFrame f ds with
          | (.error e, ds') => rw [hx] at hs; exact ⟨hs, fun fs stop' h => by cases h⟩
          | (.ok x, ds') =>
            rw [hx] at hs
            simp only
            obtain ⟨h1, h2⟩ := ih (some (stop.getD f.frame.stop)) ds'
            match hy : decodeFrames relevant start frames (some (stop.getD f.frame.stop)) ds' with
            | (.error e, ds'') => rw [hy] at h1; exact ⟨same_trans hs h1, fun fs stop' h => by cases h⟩
            | (.ok (r, stop''), ds'') =>
              rw [hy] at h1 h2
              refine ⟨same_trans hs h1, fun fs stop' h => ?_⟩
              cases h
              obtain ⟨h3, h4⟩ := h2 _ _ rfl
              refine ⟨by simp [h3], fun g hg hgr l hl => ?_⟩
              rcases List.mem_cons.mp hg with rfl | hg
              · unfold decodeFrame at hx
                simp only at hl
                rw [hl] at hx
                simp only [SubstreamDecoder.decode, Prod.mk.injEq] at hx
                exact hx.1
              · exact h4 g hg hgr l (hs _ _ hl)

/-- What stays the same. -/
private def SameModels (M : GainMath Rat) {C : Codecs} (a b : RenderingModels C) : Prop :=
  b.relevant = a.relevant ∧ b.demixing = a.demixing ∧ SameDecoders a.decoders b.decoders ∧
    (a.mix = none ∧ b.mix = none ∨ ∃ x y, a.mix = some x ∧ b.mix = some y ∧ Reached M x y)

private theorem push_some (M : GainMath Rat) (frames : UInt32 → Option RenderFrame) (start stop : Int) (blocks : List BlockWithData)
    (ss : List (List LayoutState)) : ∃ ss', (pushRenderUnit M frames start stop blocks (some ss)).2 = some ss' := by
  unfold pushRenderUnit
  split
  · exact ⟨_, rfl⟩
  · exact ⟨_, rfl⟩

private theorem push_none (M : GainMath Rat) (frames : UInt32 → Option RenderFrame) (start stop : Int) (blocks : List BlockWithData) :
    (pushRenderUnit M frames start stop blocks none).2 = none := by
  unfold pushRenderUnit
  split <;> rfl

private theorem renderUnit_same (M : GainMath Rat) {C : Codecs} (st : RenderingModels C) (u : OutputUnit) :
    (renderUnit M st u).2.relevant = st.relevant ∧ (renderUnit M st u).2.demixing = st.demixing ∧
    SameDecoders st.decoders (renderUnit M st u).2.decoders ∧
    ((renderUnit M st u).2.mix = st.mix ∨ ∃ frames start stop blocks,
      (renderUnit M st u).2.mix = (pushRenderUnit M frames start stop blocks st.mix).2) := by
  have hd := (decodeFrames_spec st.relevant u.timestamp u.frames none st.decoders).1
  unfold renderUnit
  match hx : decodeFrames st.relevant u.timestamp u.frames none st.decoders with
  | (.error e, ds) => rw [hx] at hd; exact ⟨rfl, rfl, hd, .inl rfl⟩
  | (.ok (_, none), ds) => rw [hx] at hd; exact ⟨rfl, rfl, hd, .inl rfl⟩
  | (.ok (fs, some stop), ds) =>
    rw [hx] at hd
    simp only
    cases hy : demixAll fs st.demixing with
    | error e => exact ⟨rfl, rfl, hd, .inl rfl⟩
    | ok frames =>
      simp only
      match hz : pushRenderUnit M (fun id => frames.lookup id) u.timestamp stop u.blocks st.mix with
      | (.error e, mix) => exact ⟨rfl, rfl, hd, .inr ⟨_, _, _, _, by rw [hz]⟩⟩
      | (.ok (), mix) => exact ⟨rfl, rfl, hd, .inr ⟨_, _, _, _, by rw [hz]⟩⟩

private theorem played_same {M : GainMath Rat} {C : Codecs} {first st : RenderingModels C} (h : Played M first st) :
    SameModels M first st := by
  induction h with
  | start =>
    refine ⟨rfl, rfl, fun id l h => h, ?_⟩
    cases first.mix with
    | none => exact .inl ⟨rfl, rfl⟩
    | some x => exact .inr ⟨x, x, rfl, rfl, .start⟩
  | @unit st _ u ih =>
    obtain ⟨h1, h2, h3, h4⟩ := renderUnit_same M st u
    obtain ⟨i1, i2, i3, i4⟩ := ih
    refine ⟨h1.trans i1, h2.trans i2, same_trans i3 h3, ?_⟩
    rcases h4 with h4 | ⟨frames, start, stop, blocks, h4⟩
    · rw [h4]; exact i4
    · rw [h4]
      rcases i4 with ⟨j1, j2⟩ | ⟨x, y, j1, j2, j3⟩
      · rw [j2, push_none]; exact .inl ⟨j1, rfl⟩
      · rw [j2]
        obtain ⟨ss', hs⟩ := push_some M frames start stop blocks y
        exact .inr ⟨x, ss', j1, hs, .push j3 frames start stop blocks hs⟩

/-! ### Every unit -/

theorem demixAll_frames {fs : List DecodedFrame} {ds : List DemixEntry} {frames : List (UInt32 × RenderFrame)}
    (h : demixAll fs ds = .ok frames) (hn : (ds.map (·.id)).Nodup) (d : DemixEntry) (hd : d ∈ ds) :
    demixDecoded fs d = .ok (frames.lookup d.id) := by
  have hkeys : ∀ (ds : List DemixEntry) (frames : List (UInt32 × RenderFrame)), demixAll fs ds = .ok frames →
      ∀ p ∈ frames, p.1 ∈ ds.map (·.id) := by
    intro ds
    induction ds with
    | nil => intro frames h p hp; cases h; cases hp
    | cons x ds ih =>
      intro frames h p hp
      obtain ⟨r, -, h⟩ := except_bind_ok h
      obtain ⟨rs, h2, h⟩ := except_bind_ok h
      cases r with
      | none =>
        cases h
        exact List.mem_cons_of_mem _ (ih _ h2 p hp)
      | some f =>
        cases h
        rcases List.mem_cons.mp hp with rfl | hp
        · exact List.mem_cons_self ..
        · exact List.mem_cons_of_mem _ (ih _ h2 p hp)
  induction ds generalizing frames with
  | nil => cases hd
  | cons x ds ih =>
    have h0 := hkeys (x :: ds) frames h
    obtain ⟨r, h1, h⟩ := except_bind_ok h
    obtain ⟨rs, h2, h⟩ := except_bind_ok h
    simp only [List.map_cons, List.nodup_cons] at hn
    have hlook : ∀ i, i ∉ ds.map (·.id) → rs.lookup i = none := by
      intro i hi
      rw [Option.eq_none_iff_forall_not_mem]
      intro a ha
      exact hi (hkeys ds rs h2 _ (mem_of_lookup ha))
    rcases List.mem_cons.mp hd with rfl | hd
    · cases r with
      | none =>
        cases h
        rw [h1, hlook _ hn.1]
      | some f =>
        cases h
        rw [h1]
        simp [List.lookup]
    · have hne : d.id ≠ x.id := by
        intro e
        exact hn.1 (List.mem_map.mpr ⟨d, hd, e⟩)
      have := ih h2 hn.2 hd
      cases r with
      | none => cases h; exact this
      | some f =>
        cases h
        simp only [List.lookup]
        rw [beq_false_of_ne hne]
        exact this

theorem last_of_element {fs : List DecodedFrame} {labels : SubstreamLabels} (f : DecodedFrame) (hf : f ∈ fs)
    (h : (labels.lookup f.1.frame.frame.substreamId).isSome = true) :
    ∃ g, (fs.reverse.find? fun f => (labels.lookup f.1.frame.frame.substreamId).isSome) = some g := by
  rw [← Option.isSome_iff_exists, List.find?_isSome]
  exact ⟨f, List.mem_reverse.mpr hf, h⟩

theorem demixed_to {fs : List DecodedFrame} {i : UInt32} {e : ElementWithData} {d : DemixEntry} {r : Option RenderFrame}
    (hd : createDemixEntry i e = .ok d) (h : demixDecoded fs d = .ok r) (f : DecodedFrame) (hf : f ∈ fs)
    (hl : (e.data.labels.lookup f.1.frame.frame.substreamId).isSome = true) :
    ∃ x, r = some x ∧ DemixedTo e fs x := by
  obtain ⟨labels, h1, hd⟩ := except_bind_ok hd
  cases hd
  obtain ⟨y, h2, h⟩ := except_bind_ok h
  obtain ⟨g, hg⟩ := last_of_element f hf hl
  have hany : (fs.map DecodedFrame.input).any (fun a => (e.data.labels.lookup a.id).isSome) = true := by
    rw [List.any_eq_true]
    exact ⟨_, List.mem_map.mpr ⟨f, hf, rfl⟩, hl⟩
  cases y with
  | none =>
    exfalso
    obtain ⟨z, -, h2⟩ := except_bind_ok h2
    rw [if_pos hany] at h2
    obtain ⟨z, -, h2⟩ := except_bind_ok h2
    cases h2
  | some y =>
    simp only at h
    rw [hg] at h
    cases h
    exact ⟨_, rfl, labels, y, h1, h2, rfl, g, List.mem_reverse.mp (List.mem_of_find?_eq_some hg), by
      have := List.find?_some hg; simpa using this, rfl, rfl, rfl⟩

private theorem elementIds_mem {m : MixPresentation} {s : SubMix} {a : SubMixElement} (hs : s ∈ m.subMixes) (ha : a ∈ s.elements) :
    (subMixElementIds m.subMixes).contains a.id = true := by
  simp only [subMixElementIds, List.contains_iff_mem, List.mem_flatMap, List.mem_map]
  exact ⟨s, hs, a, ha, rfl⟩

/-- What a configured pipeline has for an audio element of the mix presentation. -/
private theorem configured {E : RenderEnv} {C : Codecs} {t : TrimmingSettings} {elements : List (UInt32 × ElementWithData)}
    {m : MixPresentation} {first : RenderingModels C} (hn : (elements.map Prod.fst).Nodup)
    (h : configurePipeline E C t elements m = .ok first) :
    createMix E t elements m = .ok first.mix ∧ (first.demixing.map (·.id)).Nodup ∧
    ∀ s ∈ m.subMixes, ∀ a ∈ s.elements, ∀ e, elements.lookup a.id = some e →
      (∃ d ∈ first.demixing, createDemixEntry a.id e = .ok d ∧ d.id = a.id) ∧
      ∃ c, e.codec = some c ∧ (∀ s ∈ e.obu.substreamIds, s ∈ first.relevant) ∧
      ∀ id labels, (id, labels) ∈ e.data.labels → ∃ n d, substreamChannelCount labels.length = .ok n ∧
        createDecoder C c n = .ok d ∧ first.decoders.lookup id = some d := by
  obtain ⟨r, h1, h⟩ := except_bind_ok h
  obtain ⟨mix, h2, h⟩ := except_bind_ok h
  cases h
  obtain ⟨-, -, ⟨new, k3, k3'⟩, k4⟩ := configureElements_ok h1
  simp only [List.nil_append] at k3
  have hids : ∀ (l : List (UInt32 × ElementWithData)) (new : List DemixEntry),
      List.Forall₂ (fun x d => createDemixEntry x.1 x.2 = .ok d) l new → new.map (·.id) = l.map Prod.fst := by
    intro l new h
    induction h with
    | nil => rfl
    | cons hx _ ih =>
      obtain ⟨_, -, hx⟩ := except_bind_ok hx
      cases hx
      simp only [List.map_cons, ih]
  refine ⟨h2, ?_, fun s hs a ha e he => ?_⟩
  · simp only
    rw [k3, hids _ _ k3']
    exact hn.sublist (List.filter_sublist.map _)
  · have hmem : (a.id, e) ∈ elements.filter fun x => (subMixElementIds m.subMixes).contains x.1 :=
      List.mem_filter.mpr ⟨mem_of_lookup he, elementIds_mem hs ha⟩
    refine ⟨?_, ?_⟩
    · simp only [k3]
      clear k3 h1 k4
      generalize (elements.filter fun x => (subMixElementIds m.subMixes).contains x.1) = l at k3' hmem
      induction k3' with
      | nil => cases hmem
      | @cons x d l ds hx _ ih =>
        rcases List.mem_cons.mp hmem with hm | hm
        · subst hm
          refine ⟨d, List.mem_cons_self .., hx, ?_⟩
          obtain ⟨_, -, hx⟩ := except_bind_ok hx
          cases hx
          rfl
        · obtain ⟨d', h1, h2⟩ := ih hm
          exact ⟨d', List.mem_cons_of_mem _ h1, h2⟩
    · exact k4 _ _ hmem

/-- **C41 (every temporal unit).** Let a mix presentation be played, after any number of temporal units, whether they could be rendered or
not.  If the next unit has a frame for every audio element of the mix presentation and is rendered, then the samples that come out are the
mix (C40) of the audio elements, rendered (C39) from the frames that are decoded and demixed (C28): the frames of this unit, with LPCM
decoded as C37 says. -/
theorem C41_every_unit (M : GainMath Rat) (E : RenderEnv) (hE : GoodEnv E) (C : Codecs) (t : TrimmingSettings)
    (elements : List (UInt32 × ElementWithData)) (hn : (elements.map Prod.fst).Nodup) (hel : ElementsOk elements) (m : MixPresentation)
    (hm : ∀ s ∈ m.subMixes, ∀ l ∈ s.layouts, HasSoundSystem l.layout) (first st st' : RenderingModels C)
    (hc : configurePipeline E C t elements m = .ok first) (hs : Played M first st) (u : OutputUnit) (hb : ∀ b ∈ u.blocks, BlockOk b)
    (hf : ∀ s ∈ m.subMixes, ∀ a ∈ s.elements, ∃ e, elements.lookup a.id = some e ∧
      ∃ f ∈ u.frames, (e.data.labels.lookup f.frame.frame.substreamId).isSome = true)
    (s : SubMix) (h0 : m.subMixes[0]? = some s) (l : MixLayout) (hl : s.layouts[0]? = some l) (out : Rendered)
    (h : renderUnit M st u = (.ok out, st')) :
    ∃ fs frames, DecodedTo elements m u.frames fs ∧
      (∀ s ∈ m.subMixes, ∀ a ∈ s.elements, ∃ e x, elements.lookup a.id = some e ∧ frames a.id = some x ∧ DemixedTo e fs x) ∧
      (Sounds M E t elements frames (blockById u.blocks) s l.layout out ∨ out = [] ∧ NoRenderer E elements s l.layout) := by
  obtain ⟨c1, c2, c3⟩ := configured hn hc
  obtain ⟨i1, i2, i3, i4⟩ := played_same hs
  unfold renderUnit at h
  obtain ⟨-, hdec⟩ := decodeFrames_spec st.relevant u.timestamp u.frames none st.decoders
  match hx : decodeFrames st.relevant u.timestamp u.frames none st.decoders with
  | (.error e, ds) => rw [hx] at h; cases h
  | (.ok (_, none), ds) => rw [hx] at h; cases h
  | (.ok (fs, some stop), ds) =>
    rw [hx] at h hdec
    simp only at h
    obtain ⟨d1, d2⟩ := hdec _ _ rfl
    cases hy : demixAll fs st.demixing with
    | error e => rw [hy] at h; cases h
    | ok frames =>
      rw [hy] at h
      simp only at h
      have hframes : ∀ s ∈ m.subMixes, ∀ a ∈ s.elements, ∃ e x, elements.lookup a.id = some e ∧ frames.lookup a.id = some x ∧
          DemixedTo e fs x := by
        intro s' hs' a ha
        obtain ⟨e, he, f, hfm, hfl⟩ := hf s' hs' a ha
        obtain ⟨⟨d, hd, hde, hdi⟩, -⟩ := c3 s' hs' a ha e he
        rw [← i2] at hd c2
        have hr := demixAll_frames hy c2 d hd
        rw [hdi] at hr
        rw [← d1] at hfm
        obtain ⟨g, hg, rfl⟩ := List.mem_map.mp hfm
        obtain ⟨x, hx1, hx2⟩ := demixed_to hde hr g hg hfl
        exact ⟨e, x, he, hx1, hx2⟩
      refine ⟨fs, fun id => frames.lookup id, ⟨d1, ?_⟩, hframes, ?_⟩
      · intro f hfm s' hs' a ha e c l' labels d he hec hcl hid hlab hd
        obtain ⟨-, c', hc', hrel, hdecs⟩ := c3 s' hs' a ha e he
        rw [hec] at hc'
        cases hc'
        obtain ⟨n, x, hn1, hx1, hx2⟩ := hdecs _ _ (mem_of_lookup hlab)
        have hcount : n = labels.length := by
          unfold substreamChannelCount at hn1
          split at hn1
          · rename_i hq; cases hn1; exact hq.symm
          · split at hn1
            · rename_i hq; cases hn1; exact hq.symm
            · cases hn1
        subst hcount
        unfold createDecoder at hx1
        rw [hcl] at hx1
        simp only at hx1
        obtain ⟨d', hd', hx1⟩ := except_bind_ok hx1
        rw [hd] at hd'
        cases hd'
        cases hx1
        refine d2 f hfm ?_ d (i3 _ _ hx2)
        rw [i1]
        exact hrel _ hid
      · rcases i4 with ⟨j1, j2⟩ | ⟨x, y, j1, j2, j3⟩
        · rw [j2] at h
          unfold pushRenderUnit at h
          by_cases hbl : u.blocks.any (fun b => b.start ≠ u.timestamp ∨ b.stop ≠ stop) = true
          · rw [if_pos hbl] at h; cases h
          · rw [if_neg hbl] at h
            cases h
        · rw [j1] at c1
          obtain ⟨ss', k1, k2⟩ := C40_every_unit_and_layout M E hE t elements hel m hm x y c1 j3 (fun id => frames.lookup id)
            (fun s' hs' a ha => by
              obtain ⟨e, x, -, hx, -⟩ := hframes s' hs' a ha
              rw [hx]; rfl) u.timestamp stop u.blocks hb
          rw [← j2] at k1 k2
          match hz : pushRenderUnit M (fun id => frames.lookup id) u.timestamp stop u.blocks st.mix with
          | (.error e, mix) => rw [hz] at h; cases h
          | (.ok (), mix) =>
            rw [hz] at h k1 k2
            simp only at h k1 k2
            obtain ⟨out', h1, h2⟩ := k2.2 0 0 s l h0 hl
            simp only [Prod.mk.injEq] at h
            rw [k1, h1] at h
            obtain ⟨h, -⟩ := h
            cases h
            exact h2

/-! ### One layer: demixing leaves the channels as they are -/

private theorem lowest_ge (table : List (Label × Nat)) (k : Nat) (m : SubstreamLabels) (cur : Nat) (hc : k ≤ cur)
    (h : ∀ t ∈ table, t.1 ∈ allLabels m → k ≤ t.2) : k ≤ lowestNumber table m cur := by
  induction m generalizing cur with
  | nil => exact hc
  | cons x m ih =>
    obtain ⟨i, ls⟩ := x
    unfold lowestNumber
    have hm : ∀ t ∈ table, t.1 ∈ allLabels m → k ≤ t.2 := fun t ht hl => h t ht (by
      simp only [allLabels, List.flatMap_cons, List.mem_append] at hl ⊢; exact .inr hl)
    split
    · exact ih cur hc hm
    · rename_i t ht
      have h1 := List.mem_of_find?_eq_some ht
      have h2 := List.find?_some ht
      simp only [Bool.and_eq_true, List.contains_iff_mem] at h2
      have h3 := h t h1 (by simp only [allLabels, List.flatMap_cons, List.mem_append]; exact .inl h2.1)
      split
      · omega
      · exact ih t.2 h3 hm

private theorem countDown_nil {α : Type} (f : Nat → Option α) (lowest n : Nat) (h : n ≤ lowest) : countDown f lowest n = [] := by
  cases n with
  | zero => rfl
  | succ n => unfold countDown; rw [if_neg (by omega)]

private def numbersOk (ls : List Label) : Bool :=
  (surroundTable.all fun t => !ls.contains t.1 || decide (inputNumber surroundTable ls ≤ t.2)) &&
  (heightTable.all fun t => !ls.contains t.1 || decide (inputNumber heightTable ls ≤ t.2)) &&
  decide (inputNumber surroundTable ls ≤ 7) && decide (inputNumber heightTable ls ≤ 4)

private def okAll (x : Except Err (List Label)) : Bool := match x with
  | .ok ls => numbersOk ls
  | .error _ => true

private theorem numbers_check : ∀ n < 256, okAll (plainLayoutLabels (UInt8.ofNat n)) = true := by decide +kernel

theorem one_layer_demixers {ids : List UInt32} {r : UInt8} {layer : ChannelLayer} {x : ElementLabels}
    (h : finalizeScalable ids ⟨r, [layer]⟩ = .ok x) {labels : List Label} (hl : labelsToReconstruct [layer] = .ok labels) :
    demixers labels x.labels = [] := by
  unfold labelsToReconstruct at hl
  simp only [List.getLast?_singleton] at hl
  split at hl
  · split at hl
    · cases hl
    · cases hl
      rfl
  · rename_i hx
    have ho : layer.orderedLabels = .ok labels := by
      unfold ChannelLayer.orderedLabels
      rw [if_neg hx]
      exact hl
    have hp := C39_no_channel_is_lost ids ⟨r, [layer]⟩ layer rfl x h labels ho
    have hc := numbers_check layer.layout.toNat layer.layout.toNat_lt
    rw [UInt8.ofNat_toNat, hl] at hc
    simp only [okAll, numbersOk, Bool.and_eq_true, decide_eq_true_eq, List.all_eq_true, Bool.or_eq_true, Bool.not_eq_true'] at hc
    obtain ⟨⟨⟨h1, h2⟩, h3⟩, h4⟩ := hc
    have hin : ∀ l, l ∈ allLabels x.labels → l ∈ labels := fun l hm => (List.mem_filter.mp (hp.mem_iff.mpr hm)).1
    unfold demixers
    rw [countDown_nil, countDown_nil]
    · rfl
    · refine lowest_ge _ _ _ _ (by unfold kIntMax; omega) fun t ht hm => ?_
      rcases h2 t ht with h | h
      · have hmem := hin _ hm
        rw [← List.contains_iff_mem, h] at hmem
        cases hmem
      · exact h
    · refine lowest_ge _ _ _ _ (by unfold kIntMax; omega) fun t ht hm => ?_
      rcases h1 t ht with h | h
      · have hmem := hin _ hm
        rw [← List.contains_iff_mem, h] at hmem
        cases hmem
      · exact h

private theorem storeChannels_map (g : Label → Samples) (labels : List Label) (m : SamplesMap) (l : Label) :
    storeChannels labels (labels.map g) m l = if l ∈ labels then some (g l) else m l := by
  induction labels generalizing m with
  | nil => rfl
  | cons x labels ih =>
    simp only [List.map_cons, storeChannels, ih, List.mem_cons, SamplesMap.set]
    by_cases h1 : l ∈ labels
    · simp [h1]
    · by_cases h2 : l = x
      · subst h2; simp [h1]
      · simp [h1, h2]

private theorem common_map (g : Label → Samples) (labels : List Label) (n : Nat) (hne : labels ≠ [])
    (h : ∀ l ∈ labels, (g l).length = n) : commonTicks (labels.map g) = .ok n := by
  cases labels with
  | nil => exact absurd rfl hne
  | cons l ls =>
    simp only [List.map_cons, commonTicks]
    rw [if_pos, h l (List.mem_cons_self ..)]
    rw [List.all_eq_true]
    intro s hs
    obtain ⟨k, hk, rfl⟩ := List.mem_map.mp hs
    rw [h k (List.mem_cons_of_mem _ hk), h l (List.mem_cons_self ..)]
    simp

theorem storeLoop_stores (sub : SubstreamLabels) (start : Int) (g : Label → Samples) (n : Nat) (as : List LabeledInput)
    (has : ∀ a ∈ as, ∀ labels, sub.lookup a.id = some labels → a.start = start ∧ labels ≠ [] ∧ a.samples = labels.map g ∧
      ∀ l ∈ labels, (g l).length = n) (expected : Option Nat) (he : expected = none ∨ expected = some n) (f : LabeledFrame) :
    ∃ f', storeLoop sub start as expected f = .ok f' ∧
      (∀ a ∈ as, ∀ labels, sub.lookup a.id = some labels → ∀ l ∈ labels, f'.samples l = some (g l)) ∧
      ∀ l, f.samples l = some (g l) → f'.samples l = some (g l) := by
  induction as generalizing expected f with
  | nil => exact ⟨f, rfl, fun a ha => (by cases ha), fun l h => h⟩
  | cons a as ih =>
    have ih := ih fun b hb => has b (List.mem_cons_of_mem _ hb)
    cases hl : sub.lookup a.id with
    | none =>
      obtain ⟨f', h1, h2, h3⟩ := ih expected he f
      refine ⟨f', by unfold storeLoop; simp only [hl]; exact h1, fun b hb labels hlb => ?_, h3⟩
      rcases List.mem_cons.mp hb with rfl | hb
      · rw [hl] at hlb; cases hlb
      · exact h2 b hb labels hlb
    | some labels =>
      obtain ⟨h1, h2, h3, h4⟩ := has a (List.mem_cons_self ..) labels hl
      have hne : labels.map g ≠ [] := by simpa using h2
      obtain ⟨f', k1, k2, k3⟩ := ih (some n) (.inr rfl) ⟨storeChannels labels a.samples f.samples, a.params⟩
      refine ⟨f', ?_, ?_, ?_⟩
      · unfold storeLoop
        simp only [hl, h1, ne_eq, not_true_eq_false, if_false]
        rw [if_neg (by rw [h3]; exact hne), if_neg (by rw [h3]; simp), h3, common_map g labels n h2 h4]
        simp only [Bind.bind, Except.bind]
        rw [h3] at k1
        rcases he with rfl | rfl
        · exact k1
        · simp only [not_true_eq_false, if_false]; exact k1
      · intro b hb ls hlb l hml
        rcases List.mem_cons.mp hb with rfl | hb
        · rw [hl] at hlb
          cases hlb
          refine k3 l ?_
          simp only [h3, storeChannels_map, hml, if_true]
        · exact k2 b hb ls hlb l hml
      · intro l hfl
        refine k3 l ?_
        simp only [h3, storeChannels_map]
        split
        · rfl
        · exact hfl

/-! ### Decoding LPCM -/

private theorem decode_all {C : Codecs} (relevant : List UInt32) (start stop : Int) (X : ProcFrame → Rendered) (frames : List ProcFrame)
    (s : Option Int) (hs : s = none ∨ s = some stop) (ds : List (UInt32 × SubstreamDecoder C))
    (h : ∀ f ∈ frames, f.frame.frame.substreamId ∈ relevant → f.frame.start = start ∧ f.frame.stop = stop ∧
      ∃ l, ds.lookup f.frame.frame.substreamId = some (.lpcm l) ∧ l.decode f.frame.frame.audioFrame = .ok (X f)) :
    ∃ s' ds', decodeFrames relevant start frames s ds =
        (.ok (frames.map fun f => (f, if f.frame.frame.substreamId ∈ relevant then X f else []), s'), ds') ∧
      (s' = s ∨ s' = some stop) ∧ ((∃ f ∈ frames, f.frame.frame.substreamId ∈ relevant) → s' = some stop) := by
  induction frames generalizing s ds with
  | nil => exact ⟨s, ds, rfl, .inl rfl, fun ⟨f, hf, _⟩ => by cases hf⟩
  | cons f frames ih =>
    by_cases hr : f.frame.frame.substreamId ∈ relevant
    · obtain ⟨h1, h2, l, h3, h4⟩ := h f (List.mem_cons_self ..) hr
      have hd : decodeFrame f ds = (.ok (X f), setDecoder f.frame.frame.substreamId (.lpcm l) ds) := by
        unfold decodeFrame
        rw [h3]
        simp only [SubstreamDecoder.decode, h4]
      have hsame := decodeFrame_same f ds
      rw [hd] at hsame
      obtain ⟨s', ds', k1, k2, k3⟩ := ih (some stop) (.inr rfl) (setDecoder f.frame.frame.substreamId (.lpcm l) ds)
        fun b hb hbr => by
          obtain ⟨q1, q2, l', q3, q4⟩ := h b (List.mem_cons_of_mem _ hb) hbr
          exact ⟨q1, q2, l', hsame _ _ q3, q4⟩
      have hstop : s' = some stop := by rcases k2 with rfl | rfl <;> rfl
      refine ⟨s', ds', ?_, .inr hstop, fun _ => hstop⟩
      unfold decodeFrames
      rw [if_neg (by simpa using hr)]
      have hg : s.getD stop = stop := by rcases hs with rfl | rfl <;> rfl
      simp only [h1, h2, hg, ne_eq, not_true_eq_false, if_false, hd]
      rw [k1]
      simp only [List.map_cons, if_pos hr]
    · obtain ⟨s', ds', k1, k2, k3⟩ := ih s hs ds fun b hb => h b (List.mem_cons_of_mem _ hb)
      refine ⟨s', ds', ?_, k2, ?_⟩
      · unfold decodeFrames
        rw [if_pos (by simpa using hr), k1]
        simp only [List.map_cons, if_neg hr]
      · rintro ⟨g, hg, hgr⟩
        rcases List.mem_cons.mp hg with rfl | hg
        · exact absurd hgr hr
        · exact k3 ⟨g, hg, hgr⟩

/-! ### Specification: nothing is changed -/

/-- A gain that is given for this rate and is 0 dB unless parameter blocks say something else. -/
def NoGain (p : ParamDef) (rate : UInt32) : Prop := p.base.rate = rate ∧ p.defaultMixGain = 0

/-- An audio element of one layer, whose channels, in order, are `order`, and which is coded as LPCM. -/
structure PlainPcm (e : ElementWithData) (c : CodecObu) (pcm : LpcmConfig) (order : List Label) : Prop where
  codec : e.codec = some c
  lpcm : c.config.decoderConfig = .lpcm pcm
  channels : e.obu.elementType = 0 ∧ ∃ reserved layer, e.obu.config = .scalable ⟨reserved, [layer]⟩ ∧ layer.orderedLabels = .ok order

/-- The bytes of an audio frame that the LPCM encoder makes of the samples of these channels. -/
def EncodedFrom (pcm : LpcmConfig) (n : UInt32) (labels : List Label) (input : Label → List Int32) (frame : List UInt8) : Prop :=
  ∃ e e' : LpcmEncoder Unit, LpcmEncoder.create pcm labels.length n = .ok e ∧ e.encode (labels.map input) () = .ok e' ∧
    e'.done = [((), frame)]

/-- Decoders of that configuration decode the bytes of an audio frame to these samples of these channels, up to the bits that are not kept. -/
def CodedAs (pcm : LpcmConfig) (n : UInt32) (labels : List Label) (input : Label → List Int32) (frame : List UInt8) : Prop :=
  ∀ d, LpcmDecoder.create pcm labels.length n = .ok d → d.decode frame = .ok (labels.map fun l => (input l).map (kept pcm.sampleSize))

/-- The samples of a temporal unit that are not trimmed, for the channels `order`, as numbers; channels that are left out are silent. -/
def inputSamples (size : UInt8) (order : List Label) (input : Label → List Int32) (start ticks : Nat) : Rendered :=
  order.map fun l => (List.range ticks).map fun i => if l = .omitted then 0 else kept size ((input l).getD (start + i) 0)

theorem no_gains (M : GainMath Rat) (hM : M.linear 0 = 1) (rate : UInt32) (p : ParamDef) (h : NoGain p rate) (ticks : Nat) :
    mixGainsPerTick M rate (blockById []) p ticks = .ok (List.replicate ticks 1) := by
  unfold mixGainsPerTick
  rw [if_neg (by rw [h.1]; simp)]
  have : (q78 p.defaultMixGain : Rat) = 0 := by rw [h.2]; unfold q78; simp
  simp only [blockById, List.reverse_nil, List.find?_nil, this, hM]

theorem mix_of_one (order : List Label) (ticks : Nat) (F : Label → Nat → Rat) :
    mixOf order.length ticks [((order.map fun l => (List.range ticks).map fun i => F l i), List.replicate ticks 1)] (List.replicate ticks 1) =
      order.map fun l => (List.range ticks).map fun i => F l i := by
  unfold mixOf samplesFrom
  refine List.ext_getElem (by simp) fun c hc1 hc2 => ?_
  simp only [List.length_map, List.length_range] at hc1
  simp only [List.getElem_map, List.getElem_range]
  refine List.map_congr_left fun t ht => ?_
  rw [List.mem_range] at ht
  simp [List.getElem?_replicate, ht, sampleAt, hc1]

private theorem filter_one {elements : List (UInt32 × ElementWithData)} (hn : (elements.map Prod.fst).Nodup) {i : UInt32}
    {e : ElementWithData} (h : elements.lookup i = some e) : (elements.filter fun x => [i].contains x.1) = [(i, e)] := by
  induction elements with
  | nil => simp [List.lookup] at h
  | cons x elements ih =>
    obtain ⟨k, v⟩ := x
    simp only [List.map_cons, List.nodup_cons] at hn
    simp only [List.lookup] at h
    by_cases hk : i = k
    · subst hk
      simp only [BEq.rfl, Option.some.injEq] at h
      subst h
      rw [List.filter_cons_of_pos (by simp)]
      congr 1
      rw [List.filter_eq_nil_iff]
      intro y hy
      simp only [List.contains_cons, List.contains_nil, Bool.or_false, beq_iff_eq]
      rintro rfl
      exact hn.1 (List.mem_map.mpr ⟨y, hy, rfl⟩)
    · rw [beq_false_of_ne hk] at h
      rw [List.filter_cons_of_neg (by simpa using fun e => hk e.symm)]
      exact ih hn.2 h

theorem keys_lookup {α : Type} (l : List (UInt32 × α)) (i : UInt32) : (l.lookup i).isSome = true ↔ i ∈ l.map Prod.fst := by
  induction l with
  | nil => simp [List.lookup]
  | cons x l ih =>
    obtain ⟨k, v⟩ := x
    simp only [List.lookup, List.map_cons, List.mem_cons]
    by_cases hk : i = k
    · subst hk; simp
    · rw [beq_false_of_ne hk]
      simp only [ih, hk, false_or]

theorem ordered_sound {l : ChannelLayer} {order : List Label} (h : l.orderedLabels = .ok order) : ∃ x ∈ order, x ≠ .omitted := by
  unfold ChannelLayer.orderedLabels at h
  split at h
  · split at h
    · cases h
    · unfold expandedLayoutLabels at h
      split at h <;> simp only [Bind.bind, Except.bind, plainLayoutLabels, omitExcept, reduceCtorEq, Except.ok.injEq, List.map_cons] at h <;>
        first | (subst h; decide) | (simp at h; subst h; decide)
  · unfold plainLayoutLabels at h
    split at h <;> first | (simp only [Except.ok.injEq] at h; subst h; decide) | cases h

theorem plain_counts {x : ElementLabels} {ids : List UInt32} {r : UInt8} {layer : ChannelLayer}
    (h : finalizeScalable ids ⟨r, [layer]⟩ = .ok x) : x.labels.map Prod.fst = ids ∧
    ∀ id labels, (id, labels) ∈ x.labels → labels.length = 1 ∨ labels.length = 2 := by
  obtain ⟨h1, h2, -⟩ := C27_channels ids ⟨r, [layer]⟩ x ⟨by simp, by simp⟩ (fun _ _ _ => rfl) h
  refine ⟨h1, fun id labels hm => ?_⟩
  have : labels.length ∈ x.labels.map (fun y => y.2.length) := List.mem_map.mpr ⟨_, hm, rfl⟩
  rw [h2] at this
  simp only [List.flatMap_cons, List.flatMap_nil, List.append_nil, List.mem_append, List.mem_replicate] at this
  omega

theorem EncodedFrom.codedAs {pcm : LpcmConfig} {n : UInt32} {labels : List Label} {input : Label → List Int32} {frame : List UInt8}
    (h : EncodedFrom pcm n labels input frame) (hl : labels.length = 1 ∨ labels.length = 2) (hn : ∀ l ∈ labels, (input l).length = n.toNat) :
    CodedAs pcm n labels input frame := by
  intro d hd
  obtain ⟨e, e', h1, h2, h3⟩ := h
  obtain ⟨e'', frame', k1, k2, -, k4⟩ := C37_what_is_encoded_is_decoded pcm labels.length n d e hd h1 hl (labels.map input) (by simp)
    (fun s hs => by obtain ⟨l, hm, rfl⟩ := List.mem_map.mp hs; exact hn l hm) ()
  rw [h2, Except.ok.injEq] at k1
  subst k1
  rw [h3] at k2
  simp only [List.cons.injEq, Prod.mk.injEq, true_and, and_true] at k2
  subst k2
  rw [k4, List.map_map]
  rfl

private theorem transparent_unit (M : GainMath Rat) (hM : M.linear 0 = 1) (E : RenderEnv) (hE : GoodEnv E) (C : Codecs)
    (t : TrimmingSettings) (elements : List (UInt32 × ElementWithData)) (hn : (elements.map Prod.fst).Nodup) (hel : ElementsOk elements)
    (m : MixPresentation) (s : SubMix) (a : SubMixElement) (l : MixLayout) (hms : m.subMixes = [s]) (hsa : s.elements = [a])
    (hsl : s.layouts = [l]) (sys r : UInt8) (hlay : l.layout = ⟨2, .soundSystem sys r⟩) (e : ElementWithData)
    (he : elements.lookup a.id = some e) (c : CodecObu) (pcm : LpcmConfig) (order : List Label) (hp : PlainPcm e c pcm order)
    (hfin : ∀ y, e.obu.config = .scalable y → finalizeScalable e.obu.substreamIds y = .ok e.data) (hfit : Fits order (systemPlaces sys)) (hga : NoGain a.mixGain c.outputRate) (hgo : NoGain s.outputMixGain c.outputRate)
    (first st : RenderingModels C) (hc : configurePipeline E C t elements m = .ok first) (hs : Played M first st)
    (u : OutputUnit) (hb : u.blocks = []) (hids : ∀ i ∈ e.obu.substreamIds, ∃ f ∈ u.frames, f.frame.frame.substreamId = i) (stop : Int)
    (htime : ∀ f ∈ u.frames, f.frame.start = u.timestamp ∧ f.frame.stop = stop) (input : Label → List Int32)
    (hlen : ∀ x ∈ allLabels e.data.labels, (input x).length = c.config.numSamplesPerFrame.toNat)
    (henc : ∀ f ∈ u.frames, ∀ labels, e.data.labels.lookup f.frame.frame.substreamId = some labels →
      CodedAs pcm c.config.numSamplesPerFrame labels input f.frame.frame.audioFrame)
    (ts te : UInt32) (htrim : ∀ f ∈ u.frames, f.frame.frame.substreamId ∈ e.obu.substreamIds →
      f.frame.header.trimStart = ts ∧ f.frame.header.trimEnd = te) (ticks : Nat)
    (hticks : (if t.beginning then ts.toNat else 0) + ticks + (if t.ending then te.toNat else 0) = c.config.numSamplesPerFrame.toNat) :
    (renderUnit M st u).1 = .ok (inputSamples pcm.sampleSize order input (if t.beginning then ts.toNat else 0) ticks) := by
  obtain ⟨i1, i2, i3, i4⟩ := played_same hs
  obtain ⟨ht0, reserved, layer, hcfg, hord⟩ := hp.channels
  replace hfin := hfin _ hcfg
  obtain ⟨hkeys, hcounts⟩ := plain_counts hfin
  have hperm := C39_no_channel_is_lost e.obu.substreamIds ⟨reserved, [layer]⟩ layer rfl e.data hfin order hord
  -- what is configured
  obtain ⟨r0, c1, hc⟩ := except_bind_ok hc
  obtain ⟨mix, c2, hc⟩ := except_bind_ok hc
  have hids1 : subMixElementIds m.subMixes = [a.id] := by rw [hms]; simp [subMixElementIds, hsa]
  rw [hids1, filter_one hn he] at c1
  unfold configureElements at c1
  rw [hp.codec] at c1
  obtain ⟨ds, c3, c1⟩ := except_bind_ok c1
  obtain ⟨y, c4, c1⟩ := except_bind_ok c1
  unfold configureElements at c1
  cases c1
  cases hc
  simp only [List.nil_append] at i1 i2 i3 i4
  obtain ⟨labels, c5, c4⟩ := except_bind_ok c4
  cases c4
  have hdm : demixers labels e.data.labels = [] := by
    unfold elementLabelsToReconstruct at c5
    rw [if_pos ht0, hcfg] at c5
    exact one_layer_demixers hfin c5
  rw [hdm] at i2
  obtain ⟨-, c6⟩ := initDecoders_ok c3
  -- decoding
  have hlookup : ∀ i, i ∈ e.obu.substreamIds → ∃ ls, e.data.labels.lookup i = some ls := by
    intro i hi
    rw [← hkeys] at hi
    exact Option.isSome_iff_exists.mp ((keys_lookup _ _).mpr hi)
  have hmemall : ∀ i ls, e.data.labels.lookup i = some ls → ∀ x ∈ ls, x ∈ allLabels e.data.labels := by
    intro i ls hi x hx
    exact List.mem_flatMap.mpr ⟨_, mem_of_lookup hi, hx⟩
  obtain ⟨s', ds', d1, -, d3⟩ := decode_all st.relevant u.timestamp stop
    (fun f => ((e.data.labels.lookup f.frame.frame.substreamId).getD []).map fun x => (input x).map (kept pcm.sampleSize))
    u.frames none (.inl rfl) st.decoders (by
      intro f hf hfr
      rw [i1] at hfr
      obtain ⟨ls, hls⟩ := hlookup _ hfr
      obtain ⟨n, d, q1, q2, q3⟩ := c6 _ _ (mem_of_lookup hls)
      have hn' : n = ls.length := by
        unfold substreamChannelCount at q1
        split at q1
        · rename_i hq; cases q1; exact hq.symm
        · split at q1
          · rename_i hq; cases q1; exact hq.symm
          · cases q1
      subst hn'
      unfold createDecoder at q2
      rw [hp.lpcm] at q2
      obtain ⟨d', hd', q2⟩ := except_bind_ok q2
      cases q2
      refine ⟨(htime f hf).1, (htime f hf).2, d', i3 _ _ q3, ?_⟩
      rw [hls]
      exact henc f hf ls hls d' hd')
  obtain ⟨x0, hx0, hx0'⟩ := ordered_sound hord
  have hx0m : x0 ∈ allLabels e.data.labels := hperm.mem_iff.mp (List.mem_filter.mpr ⟨hx0, by simpa using hx0'⟩)
  obtain ⟨⟨i0, ls0⟩, hi0, -⟩ := List.mem_flatMap.mp hx0m
  have hi0' : i0 ∈ e.obu.substreamIds := by rw [← hkeys]; exact List.mem_map.mpr ⟨_, hi0, rfl⟩
  obtain ⟨f0, hf0, hf0'⟩ := hids i0 hi0'
  have hstop : s' = some stop := d3 ⟨f0, hf0, by rw [i1, hf0']; exact hi0'⟩
  subst hstop
  rw [i1] at d1
  -- demixing
  obtain ⟨fs, hfs⟩ : ∃ fs : List DecodedFrame, fs = u.frames.map (fun f => (f, if f.frame.frame.substreamId ∈ e.obu.substreamIds then
    ((e.data.labels.lookup f.frame.frame.substreamId).getD []).map (fun x => (input x).map (kept pcm.sampleSize)) else [])) := ⟨_, rfl⟩
  have hstore : ∃ y : LabeledFrame, storeSamples e.data.labels (fs.map DecodedFrame.input) ⟨.empty, ⟨0, 0, 0, 0, 0⟩⟩ = .ok y ∧
      ∀ x ∈ allLabels e.data.labels, y.samples x = some ((input x).map (kept pcm.sampleSize)) := by
    have hloop := storeLoop_stores e.data.labels u.timestamp (fun x => (input x).map (kept pcm.sampleSize)) c.config.numSamplesPerFrame.toNat
      (fs.map DecodedFrame.input) (by
        intro b hb' ls hls
        rw [hfs, List.map_map] at hb'
        obtain ⟨f, hf, rfl⟩ := List.mem_map.mp hb'
        have hls' : e.data.labels.lookup f.frame.frame.substreamId = some ls := hls
        have hmem : f.frame.frame.substreamId ∈ e.obu.substreamIds := by
          rw [← hkeys]
          exact (keys_lookup _ _).mp (by rw [hls']; rfl)
        refine ⟨(htime f hf).1, ?_, ?_, ?_⟩
        · rintro rfl
          have := hcounts _ _ (mem_of_lookup hls')
          simp at this
        · simp only [Function.comp, DecodedFrame.input, if_pos hmem, hls', Option.getD_some]
        · intro x hx
          rw [List.length_map]
          exact hlen x (hmemall _ _ hls' x hx)) none (.inl rfl) ⟨.empty, ⟨0, 0, 0, 0, 0⟩⟩
    obtain ⟨y, y1, y2, -⟩ := hloop
    refine ⟨y, ?_, ?_⟩
    · unfold storeSamples
      cases hfm : fs.map DecodedFrame.input with
      | nil =>
        rw [hfs, List.map_map] at hfm
        rw [List.map_eq_nil_iff.mp hfm] at hf0
        cases hf0
      | cons b bs =>
        simp only
        have hbm : b ∈ fs.map DecodedFrame.input := by rw [hfm]; exact List.mem_cons_self ..
        rw [hfs, List.map_map] at hbm
        obtain ⟨f, hf, rfl⟩ := List.mem_map.mp hbm
        have : (f.frame.start : Int) = u.timestamp := (htime f hf).1
        rw [hfm] at y1
        rw [← y1]
        congr 1
    · intro x hx
      obtain ⟨⟨i, ls⟩, hi, hxl⟩ := List.mem_flatMap.mp hx
      have him : i ∈ e.obu.substreamIds := by rw [← hkeys]; exact List.mem_map.mpr ⟨_, hi, rfl⟩
      obtain ⟨f, hf, hfi⟩ := hids i him
      have hnd : (e.data.labels.map Prod.fst).Nodup := by
        rw [hkeys]
        unfold finalizeScalable at hfin
        by_contra hcon
        rw [if_pos hcon] at hfin
        cases hfin
      refine y2 _ (by rw [hfs, List.map_map]; exact List.mem_map.mpr ⟨f, hf, rfl⟩) ls ?_ x hxl
      show e.data.labels.lookup f.frame.frame.substreamId = some ls
      rw [hfi]
      exact lookup_of_mem hnd hi
  obtain ⟨y, hy1, hy2⟩ := hstore
  have hf0l : (e.data.labels.lookup f0.frame.frame.substreamId).isSome = true := by
    rw [keys_lookup, hkeys, hf0']; exact hi0'
  have hany : (fs.map DecodedFrame.input).any (fun b => (e.data.labels.lookup b.id).isSome) = true := by
    rw [List.any_eq_true, hfs, List.map_map]
    exact ⟨_, List.mem_map.mpr ⟨f0, hf0, rfl⟩, hf0l⟩
  obtain ⟨g, hg⟩ : ∃ g, (fs.reverse.find? fun f => (e.data.labels.lookup f.1.frame.frame.substreamId).isSome) = some g :=
    last_of_element _ (by rw [hfs]; exact List.mem_map.mpr ⟨f0, hf0, rfl⟩) hf0l
  have hgm := List.mem_reverse.mp (List.mem_of_find?_eq_some hg)
  have hgl := List.find?_some hg
  rw [keys_lookup, hkeys] at hgl
  have hgt : g.1.frame.header.trimStart = ts ∧ g.1.frame.header.trimEnd = te := by
    rw [hfs] at hgm
    obtain ⟨f, hf, rfl⟩ := List.mem_map.mp hgm
    exact htrim f hf hgl
  obtain ⟨rf, hrf⟩ : ∃ rf : RenderFrame, rf = ⟨y.samples, ts, te, g.1.mixing⟩ := ⟨_, rfl⟩
  have hdemix : demixAll fs st.demixing = .ok [(a.id, rf)] := by
    rw [i2]
    simp only [demixAll, demixDecoded, Iamf.demixElement, hy1, Bind.bind, Except.bind, hany, if_true, runDemixers, hg, hgt.1, hgt.2, hrf]
  -- rendering
  have hpass : createRenderer E e.obu e.data.labels a.rendering l.layout = .ok (some (.passThrough order)) := by
    obtain ⟨ls, hls⟩ := (C39_pass_through_exactly_for_matching_layers ⟨reserved, [layer]⟩ (.inr rfl) sys r).mpr
      ⟨layer, by simp, order, hord, hfit⟩
    obtain ⟨ls', h1, ⟨l', hl', h2⟩, -⟩ := C39_channels_go_to_their_loudspeakers _ _ _ hls
    simp only [List.mem_singleton] at hl'
    subst hl'
    rw [hord, Except.ok.injEq] at h2
    subst h2
    cases h1
    unfold createRenderer
    rw [hlay, hcfg, if_neg (by rw [ht0]; decide), if_pos ht0]
    simp only [show ((2 : UInt8) == 3) = false from rfl, Bool.and_false, Bool.false_eq_true, if_false, hls, Bind.bind, Except.bind]
  have hnum : numChannelsFromLayout l.layout = .ok (order.length : Int) := by
    obtain ⟨ls, hls⟩ := (C39_pass_through_exactly_for_matching_layers ⟨reserved, [layer]⟩ (.inr rfl) sys r).mpr
      ⟨layer, by simp, order, hord, hfit⟩
    obtain ⟨ls', h1, ⟨l', hl', h2⟩, -, h3, -⟩ := C39_channels_go_to_their_loudspeakers _ _ _ hls
    simp only [List.mem_singleton] at hl'
    subst hl'
    rw [hord, Except.ok.injEq] at h2
    subst h2
    rw [hlay]
    exact h3
  have hfind : ∀ x ∈ order, x ≠ .omitted → findSamples x rf.samples = .ok ((input x).map (kept pcm.sampleSize)) := by
    intro x hx hxo
    have : rf.samples x = some ((input x).map (kept pcm.sampleSize)) := by
      rw [hrf]
      exact hy2 x (hperm.mem_iff.mp (List.mem_filter.mpr ⟨hx, by simpa using hxo⟩))
    unfold findSamples
    rw [this]
  have hstart : startOf t rf = if t.beginning then ts.toNat else 0 := by unfold startOf; rw [hrf]
  have hend : endOf t rf = if t.ending then te.toNat else 0 := by unfold endOf; rw [hrf]
  have hable : Renderable rf t order c.config.numSamplesPerFrame.toNat ticks := by
    refine ⟨c.config.numSamplesPerFrame.toNat, ⟨⟨x0, hx0, hx0'⟩, fun x hx hxo => ⟨_, hfind x hx hxo, ?_⟩⟩, Nat.le_refl _, ?_⟩
    · rw [List.length_map]
      exact hlen x (hperm.mem_iff.mp (List.mem_filter.mpr ⟨hx, by simpa using hxo⟩))
    · rw [hstart, hend]; exact hticks
  have hrender : (ElementRenderer.passThrough order).render c.config.numSamplesPerFrame.toNat t rf =
      .ok (trimmedSamples rf t order ticks, ticks) := by
    have := C39_pass_through_is_exact order (fun h => by rw [h] at hx0; cases hx0) c.config.numSamplesPerFrame.toNat
      c.config.numSamplesPerFrame.toNat_lt t rf
    split at this
    · rename_i out ticks' heq
      obtain ⟨h1, h2⟩ := this
      obtain ⟨n, k1, k2, k3⟩ := h1
      obtain ⟨n', k1', k2', k3'⟩ := hable
      obtain ⟨z, hz, hzl⟩ := k1.2 x0 hx0 hx0'
      obtain ⟨z', hz', hzl'⟩ := k1'.2 x0 hx0 hx0'
      rw [hz] at hz'
      cases hz'
      have : ticks' = ticks := by omega
      subst this
      rw [heq, h2]
    · exact absurd ⟨ticks, hable⟩ this.2
  have hexp : trimmedSamples rf t order ticks = inputSamples pcm.sampleSize order input (if t.beginning then ts.toNat else 0) ticks := by
    unfold trimmedSamples inputSamples
    refine List.map_congr_left fun x hx => List.map_congr_left fun i hi => ?_
    rw [List.mem_range] at hi
    unfold sampleOf
    split
    · rfl
    · rename_i hxo
      rw [hfind x hx hxo, hstart]
      have hl' : (if t.beginning then ts.toNat else 0) + i < (input x).length := by
        rw [hlen x (hperm.mem_iff.mp (List.mem_filter.mpr ⟨hx, by simpa using hxo⟩))]
        omega
      simp only [List.getElem?_map, List.getElem?_eq_getElem hl', Option.map_some, Option.getD_some, List.getD_eq_getElem?_getD]
  have hsound : ∀ out, Sounds M E t elements (fun id => [(a.id, rf)].lookup id) (blockById []) s l.layout out ↔
      out = inputSamples pcm.sampleSize order input (if t.beginning then ts.toNat else 0) ticks := by
    have hlk : [(a.id, rf)].lookup a.id = some rf := by simp [List.lookup]
    intro out
    constructor
    · rintro ⟨channels, rate, frameSize, ticks', parts, output, h1, h2, h3, rfl⟩
      rw [hsa] at h2
      cases h2 with
      | cons h2 h2' =>
        cases h2'
        obtain ⟨e', c', r', f', k1, k2, k3, k4, k5, k6, k7, k8, k9⟩ := h2
        rw [he] at k1
        cases k1
        rw [hp.codec] at k2
        cases k2
        rw [hpass] at k5
        cases k5
        simp only [hlk] at k6
        cases k6
        subst k3 k4
        rw [hrender] at k7
        simp only [Except.ok.injEq, Prod.mk.injEq] at k7
        obtain ⟨k7, rfl⟩ := k7
        rw [no_gains M hM _ _ hga] at k9
        rw [no_gains M hM _ _ hgo] at h3
        cases h3
        rw [hnum] at h1
        cases h1
        rename_i p
        obtain ⟨p1, p2⟩ := p
        simp only [Except.ok.injEq] at k7 k9
        subst k7 k9
        rw [hexp]
        exact mix_of_one order ticks _
    · rintro rfl
      refine ⟨order.length, c.outputRate, c.config.numSamplesPerFrame, ticks, [(trimmedSamples rf t order ticks, List.replicate ticks 1)],
        List.replicate ticks 1, hnum, ?_, no_gains M hM _ _ hgo _, ?_⟩
      · rw [hsa]
        exact .cons ⟨e, c, _, rf, he, hp.codec, rfl, rfl, hpass, hlk, hrender, by omega, no_gains M hM _ _ hga _⟩ .nil
      · rw [hexp]
        exact (mix_of_one order ticks _).symm
  have hno : ¬ NoRenderer E elements s l.layout := by
    rintro (⟨x, hx⟩ | ⟨a', ha', e', h1, h2⟩)
    · rw [hnum] at hx; cases hx
    · rw [hsa, List.mem_singleton] at ha'
      subst ha'
      rw [he] at h1
      cases h1
      rw [hpass] at h2
      cases h2
  have hmix : ∃ x z, mix = some x ∧ st.mix = some z ∧ Reached M x z := by
    rcases i4 with ⟨j1, j2⟩ | ⟨x, z, j1, j2, j3⟩
    · exfalso
      rw [j1] at c2
      unfold createMix at c2
      obtain ⟨ss, q1, q2⟩ := except_bind_ok c2
      rw [hms] at q1
      have key : ∀ ls, createSubMix E t elements s = .ok ls → ∃ L v, ls = [⟨some L, v⟩] := by
        intro ls hls
        unfold createSubMix at hls
        obtain ⟨es, h1, hls⟩ := except_bind_ok hls
        rw [hsa] at h1
        unfold collectElements at h1
        rw [he] at h1
        simp only [collectElements, Bind.bind, Except.bind, Except.ok.injEq] at h1
        subst h1
        obtain ⟨⟨rate, fsz⟩, -, hls⟩ := except_bind_ok hls
        rw [hsl] at hls
        simp only [List.mapM_cons, List.mapM_nil] at hls
        unfold createLayoutRenderer at hls
        rw [hnum] at hls
        simp only [createElementMixes, hpass, orNull, Bind.bind, Except.bind, pure, Except.pure, Except.ok.injEq] at hls
        exact ⟨_, _, hls.symm⟩
      simp only [List.mapM_cons, List.mapM_nil] at q1
      obtain ⟨ls, h1, q1⟩ := except_bind_ok q1
      obtain ⟨L, v, rfl⟩ := key ls h1
      simp only [Bind.bind, Except.bind, pure, Except.pure, Except.ok.injEq] at q1
      subst q1
      simp at q2
    · exact ⟨x, z, j1, j2, j3⟩
  obtain ⟨x, z, m1, m2, m3⟩ := hmix
  rw [m1] at c2
  obtain ⟨ss', k1, k2⟩ := C40_every_unit_and_layout M E hE t elements hel m (by
      intro s1 hs1 l1 hl1
      rw [hms, List.mem_singleton] at hs1
      subst hs1
      rw [hsl, List.mem_singleton] at hl1
      subst hl1
      rw [hlay]
      exact fun _ => ⟨sys, r, rfl⟩) x z c2 m3 (fun id => [(a.id, rf)].lookup id) (by
      intro s1 hs1 a1 ha1
      rw [hms, List.mem_singleton] at hs1
      subst hs1
      rw [hsa, List.mem_singleton] at ha1
      subst ha1
      simp [List.lookup]) u.timestamp stop [] (by simp)
  unfold renderUnit
  rw [i1, d1]
  simp only
  rw [← hfs, hdemix, m2, hb]
  simp only
  match hz : pushRenderUnit M (fun id => [(a.id, rf)].lookup id) u.timestamp stop [] (some z) with
  | (.error err, mix') =>
    rw [hz] at k2
    exfalso
    rcases k2.2 with ⟨b, hb', -⟩ | ⟨s1, hs1, l1, hl1, -, h2⟩
    · cases hb'
    · rw [hms, List.mem_singleton] at hs1
      subst hs1
      rw [hsl, List.mem_singleton] at hl1
      subst hl1
      exact h2 ⟨_, (hsound _).mpr rfl⟩
  | (.ok (), mix') =>
    rw [hz] at k1 k2
    obtain ⟨out, h1, h2⟩ := k2.2 0 0 s l (by rw [hms]; rfl) (by rw [hsl]; rfl)
    simp only at k1 ⊢
    rw [k1, h1]
    rcases h2 with h2 | ⟨-, h2⟩
    · rw [(hsound out).mp h2]
    · exact absurd h2 hno

/-! ### Descriptors that are transmitted -/

private theorem transmitted_element {d : SequenceObus} {x : Descriptors} {n : UInt32} {us : List TemporalUnitView} {delimiters : Bool}
    (h : Transmitted d x n us delimiters) {i : UInt32} {e : ElementWithData} (he : (i, e) ∈ x.elements) :
    ∃ b codecs, BuiltElement b ∧ e.obu = carriedElement b ∧ generateElement codecs (carriedElement b) = .ok e := by
  have := h.same.elements.mem_iff.mp he
  obtain ⟨y, hy, heq⟩ := List.mem_map.mp this
  cases heq
  obtain ⟨-, -, h1, h2⟩ := h.built.element y hy
  exact ⟨y.2.body.obu, _, h1, rfl, h2⟩

private theorem transmitted_keys {d : SequenceObus} {x : Descriptors} {n : UInt32} {us : List TemporalUnitView} {delimiters : Bool}
    (h : Transmitted d x n us delimiters) : (x.elements.map Prod.fst).Nodup := by
  rw [(h.same.elements.map Prod.fst).nodup_iff, List.map_map]
  exact h.built.elementIds

private theorem built_scene {b : AudioElement} (h : BuiltElement b) : SceneOk (carriedElement b) := by
  cases h with
  | scalable id rs cc ids c a ps h hl hp =>
    unfold AudioElement.createScalable at h
    split at h
    · cases h
    · split at h
      · cases h
      · cases h
        exact ⟨fun m hm => (by cases hm), fun p hp => (by cases hp)⟩
  | mono id rs cc ids s m c a ps hc h hl hp =>
    unfold AudioElement.createAmbisonics at h
    split at h
    · cases h
    · split at h
      · cases h
      · cases h
        refine ⟨fun m' hm => ?_, fun p hp => (by cases hp)⟩
        cases hm
        have : c = ⟨s, m⟩ := by
          unfold AmbisonicsMono.create at hc
          split at hc
          · cases hc
          · split at hc
            · cases hc
            · split at hc
              · cases hc
              · split at hc
                · cases hc
                · cases hc; rfl
        subst this
        exact hc
  | projection id rs cc ids o s k m c a ps hc h hp =>
    unfold AudioElement.createAmbisonics at h
    split at h
    · cases h
    · split at h
      · cases h
      · cases h
        refine ⟨fun m' hm => (by cases hm), fun p hp => ?_⟩
        cases hp
        have : c = ⟨o, s, k, m⟩ := by
          unfold AmbisonicsProjection.create at hc
          split at hc
          · cases hc
          · split at hc
            · cases hc
            · cases hc; rfl
        subst this
        exact hc
  | objects id rs cc sub n ext c a ps hc h hp =>
    cases h
    exact ⟨fun m hm => (by cases hm), fun p hp => (by cases hp)⟩

private theorem built_layers {b : AudioElement} (h : BuiltElement b) (c : ScalableLayout) (hc : (carriedElement b).config = .scalable c) :
    c.layers ≠ [] := by
  cases h with
  | scalable id rs cc ids c' a ps h hl hp =>
    unfold AudioElement.createScalable at h
    split at h
    · cases h
    · split at h
      · cases h
      · rename_i hv
        cases h
        cases hc
        simp only [ne_eq, List.map_eq_nil_iff]
        intro hnil
        simp [ScalableLayout.valid, ScalableLayout.numLayers, hnil] at hv
  | mono id rs cc ids s m c a ps hc' h hl hp =>
    unfold AudioElement.createAmbisonics at h
    split at h
    · cases h
    · split at h
      · cases h
      · cases h; cases hc
  | projection id rs cc ids o s k m c a ps hc' h hp =>
    unfold AudioElement.createAmbisonics at h
    split at h
    · cases h
    · split at h
      · cases h
      · cases h; cases hc
  | objects id rs cc sub n ext c a ps hc' h hp =>
    cases h
    cases hc

private theorem transmitted_ok {d : SequenceObus} {x : Descriptors} {n : UInt32} {us : List TemporalUnitView} {delimiters : Bool}
    (h : Transmitted d x n us delimiters) : ElementsOk x.elements := by
  intro i e he
  obtain ⟨b, codecs, h1, h2, h3⟩ := transmitted_element h (mem_of_lookup he)
  obtain ⟨k1, k2, k3⟩ := C40_elements_of_descriptors codecs _ e h3
  exact ⟨by rw [k1]; exact built_scene h1, k2, k3⟩

private theorem transmitted_labels {d : SequenceObus} {x : Descriptors} {n : UInt32} {us : List TemporalUnitView} {delimiters : Bool}
    (h : Transmitted d x n us delimiters) {i : UInt32} {e : ElementWithData} (he : x.elements.lookup i = some e)
    (ht : e.obu.elementType = 0) (y : ScalableLayout) (hy : e.obu.config = .scalable y) :
    finalizeScalable e.obu.substreamIds y = .ok e.data := by
  obtain ⟨b, codecs, -, h2, h3⟩ := transmitted_element h (mem_of_lookup he)
  rw [← h2] at h3
  unfold generateElement at h3
  rw [if_pos ht, hy] at h3
  obtain ⟨z, h4, h5⟩ := except_bind_ok h3
  split at h5
  · cases h5
  · simp only [Except.ok.injEq] at h5
    rw [← h5]
    exact h4

/-- What is configured is a mix presentation of the descriptors, with one sub-mix of it, and the layout of the processor. -/
private theorem configured_mix {B : Backend} {s : DecoderSettings} {x : Descriptors} {p0 : Processor B} (hi : initAll s x = .ok p0)
    (hl : Layered (x.elements.map fun e => (e.1, e.2.obu)) (supportedMixes s x)) :
    ∃ m ∈ x.mixes, ∃ sm ∈ m.subMixes, ∃ (m' : MixPresentation) (l : MixLayout), l.layout = p0.layout ∧
      m'.subMixes = [⟨sm.elements, sm.outputMixGain, [l]⟩] ∧ B.configure x.elements m' = .ok p0.renderer := by
  obtain ⟨p, -, h⟩ := except_bind_ok hi
  unfold initRendering at h
  split at h
  · cases h
  split at h
  · cases h
  split at h
  · cases h
  rename_i hne
  obtain ⟨sel, h1, h⟩ := except_bind_ok h
  obtain ⟨i, m, -, hm, h2⟩ := C23_selection (x.elements.map fun e => (e.1, e.2.obu)) (supportedMixes s x) s.layout s.mixId hl
    (by intro hnil; rw [hnil] at hne; simp at hne)
  rw [h1] at h2
  obtain ⟨h3, -, -, -, m', sm, l, h4, h5, h6, h7, h8⟩ := h2
  have hget : sel.mixes[sel.mix]? = some m' := by
    rw [h5, h3, List.getElem?_set]
    simp [(List.getElem?_eq_some_iff.mp hm).1]
  rw [hget] at h
  simp only at h
  obtain ⟨simple, h9, h⟩ := except_bind_ok h
  obtain ⟨r, h10, h⟩ := except_bind_ok h
  cases h
  have hsimple : simple.subMixes = [⟨sm.elements, sm.outputMixGain, [l]⟩] := by
    unfold simplifyMix at h9
    rw [if_neg (by omega)] at h9
    simp only [Int.toNat_natCast, h6] at h9
    rw [if_neg (by omega)] at h9
    simp only [h7, Except.ok.injEq] at h9
    rw [← h9]
  have hmem : m ∈ x.mixes := (List.mem_filter.mp (List.mem_of_getElem? hm)).1
  cases h4 with
  | same _ => exact ⟨m, hmem, sm, List.mem_of_getElem? h6, simple, l, h8, hsimple, h10⟩
  | added d s0 ss _ _ hs =>
    have h6' := List.mem_of_getElem? h6
    rcases List.mem_cons.mp h6' with h6' | h6'
    · refine ⟨m, hmem, s0, by rw [hs]; exact List.mem_cons_self .., simple, l, h8, ?_, h10⟩
      rw [hsimple, h6']
    · exact ⟨m, hmem, sm, by rw [hs]; exact List.mem_cons_of_mem _ h6', simple, l, h8, hsimple, h10⟩

/-- `C41_lossless_samples` for frames that decode to the samples, whoever made them. -/
theorem lossless_samples (M : GainMath Rat) (hM : M.linear 0 = 1) (E : RenderEnv) (hE : GoodEnv E) (C : Codecs) (t : TrimmingSettings)
    (s : DecoderSettings) (d : SequenceObus) (x : Descriptors) (n : UInt32) (us : List TemporalUnitView) (delimiters : Bool)
    (h : Transmitted d x n us delimiters) (i : UInt32) (e : ElementWithData) (he : x.elements.lookup i = some e) (c : CodecObu)
    (pcm : LpcmConfig) (order : List Label) (hp : PlainPcm e c pcm order)
    (hmix : ∀ m ∈ x.mixes, ∀ s ∈ m.subMixes, ∃ a, s.elements = [a] ∧ a.id = i ∧ NoGain a.mixGain c.outputRate ∧
      NoGain s.outputMixGain c.outputRate)
    (p0 : Processor (standardBackend M E C t)) (hi : initAll s x = .ok p0) (sys r : UInt8) (hlay : p0.layout = ⟨2, .soundSystem sys r⟩)
    (hfit : Fits order (systemPlaces sys)) (hb : ∀ u ∈ us, u.blocks = []) (input : Nat → Label → List Int32)
    (hlen : ∀ k < us.length, ∀ l ∈ order, (input k l).length = n.toNat)
    (henc : ∀ k (hk : k < us.length), ∀ f ∈ us[k].frames, ∀ labels, e.data.labels.lookup f.frame.substreamId = some labels →
      CodedAs pcm n labels (input k) f.frame.audioFrame)
    (start stop : Nat → UInt32) (htrim : ∀ k (hk : k < us.length), ∀ f ∈ us[k].frames, f.frame.substreamId ∈ e.obu.substreamIds →
      f.header.trimStart = start k ∧ f.header.trimEnd = stop k) (ticks : Nat → Nat)
    (hticks : ∀ k < us.length, (if t.beginning then (start k).toNat else 0) + ticks k + (if t.ending then (stop k).toNat else 0) = n.toNat) :
    Renders (standardBackend M E C t) p0.renderer (unitsBack x n 0 [] us)
      ((List.range us.length).map fun k =>
        inputSamples pcm.sampleSize order (input k) (if t.beginning then (start k).toNat else 0) (ticks k)) := by
  have hkeys := transmitted_keys h
  have hok := transmitted_ok h
  have hfin := transmitted_labels h he hp.channels.1
  have hn : c.config.numSamplesPerFrame = n := h.playable.frameSize _ (mem_of_lookup he) c hp.codec
  have hlayered : Layered (x.elements.map fun e => (e.1, e.2.obu)) (supportedMixes s x) := by
    intro m0 _ s0 _ e0 _ a y hj hy
    obtain ⟨⟨j', e'⟩, hm, heq⟩ := List.mem_map.mp (mem_of_lookup hj)
    cases heq
    obtain ⟨b, codecs, k1, k2, -⟩ := transmitted_element h hm
    exact built_layers k1 y (by rw [← k2]; exact hy)
  obtain ⟨m, hm, sm, hsm, m', l, q1, q2, q3⟩ := configured_mix hi hlayered
  obtain ⟨a, a1, a2, a3, a4⟩ := hmix m hm sm hsm
  have hall : ∀ y ∈ allLabels e.data.labels, y ∈ order := by
    obtain ⟨-, reserved, layer, hcfg, hord⟩ := hp.channels
    intro y hy
    exact (List.mem_filter.mp ((C39_no_channel_is_lost _ _ layer rfl e.data (hfin _ hcfg) order hord).mem_iff.mpr hy)).1
  have step : ∀ k (hk : k < us.length) (st : RenderingModels C), Played M p0.renderer st → ∀ u : OutputUnit,
      u.frames = us[k].frames.map (frameBack x) → u.blocks = [] → u.timestamp = (k * n.toNat : Nat) →
      (renderUnit M st u).1 = .ok (inputSamples pcm.sampleSize order (input k) (if t.beginning then (start k).toNat else 0) (ticks k)) := by
    intro k hk st hst u hu hub hut
    have hbf : ∀ f ∈ us[k].frames, (frameBack x f).frame = f := by
      intro f hf
      unfold frameBack
      split <;> rfl
    have hfr : ∀ f ∈ u.frames, f.frame ∈ us[k].frames := by
      intro f hf
      rw [hu] at hf
      obtain ⟨f', hf', rfl⟩ := List.mem_map.mp hf
      rw [hbf f' hf']
      exact hf'
    have hunit := h.unit k hk
    refine transparent_unit M hM E hE C t x.elements hkeys hok m' _ a l q2 a1 rfl sys r (q1.trans hlay) e (by rw [a2]; exact he) c pcm order hp
      hfin hfit a3 a4 p0.renderer st q3 hst u hub ?_ (((k + 1) * n.toNat : Nat) : Int) ?_ (input k) ?_ ?_ (start k) (stop k) ?_ (ticks k)
      (by rw [hn]; exact hticks k hk)
    · intro j hj
      have hmem : j ∈ us[k].frames.map (·.frame.substreamId) := by
        rw [hunit.frames.mem_iff]
        exact List.mem_flatMap.mpr ⟨_, mem_of_lookup he, hj⟩
      obtain ⟨f, hf, rfl⟩ := List.mem_map.mp hmem
      refine ⟨frameBack x f, by rw [hu]; exact List.mem_map.mpr ⟨f, hf, rfl⟩, ?_⟩
      rw [hbf f hf]
    · intro f hf
      have := (hunit.frame _ (hfr f hf)).time
      rw [hut]
      exact this
    · intro y hy
      rw [hn]
      exact hlen k hk y (hall y hy)
    · intro f hf labels hl
      rw [hn]
      exact henc k hk _ (hfr f hf) labels hl
    · intro f hf hf'
      exact htrim k hk _ (hfr f hf) hf'
  have all : ∀ (us' : List TemporalUnitView) (k : Nat) (earlier : List BlockWithData) (st : RenderingModels C), us.drop k = us' →
      k + us'.length = us.length → Played M p0.renderer st →
      Renders (standardBackend M E C t) st (unitsBack x n k earlier us') ((List.range us'.length).map fun j =>
        inputSamples pcm.sampleSize order (input (k + j)) (if t.beginning then (start (k + j)).toNat else 0) (ticks (k + j))) := by
    intro us'
    induction us' with
    | nil => intro k earlier st _ _ _; exact .nil _
    | cons u us' ih =>
      intro k earlier st hd hl hst
      simp only [List.length_cons] at hl
      have hk : k < us.length := by omega
      have hu : us[k] = u := by
        have := List.getElem_drop (xs := us) (i := k) (j := 0) (h := by rw [hd]; simp)
        simp only [Nat.add_zero] at this
        rw [← this]
        simp only [hd, List.getElem_cons_zero]
      have hub : u.blocks = [] := hb u (by rw [← hu]; exact List.getElem_mem hk)
      rw [List.length_cons, List.range_succ_eq_map, List.map_cons, List.map_map]
      unfold unitsBack
      obtain ⟨w, hw⟩ : ∃ w : OutputUnit, w = ⟨u.frames.map (frameBack x), (u.blocks.filter fun b => elapsed b.obu.parameterId earlier =
          k * n.toNat).map blockBack, (k * n.toNat : Nat)⟩ := ⟨_, rfl⟩
      have hs := step k hk st hst w (by rw [hw, hu]) (by rw [hw, hub]; rfl) (by rw [hw])
      have := ih (k + 1) (earlier ++ u.blocks) (renderUnit M st w).2 (by rw [← List.drop_drop, hd]; rfl) (by omega) (.unit hst w)
      rw [← hw]
      refine .cons (s' := (renderUnit M st w).2) (Prod.ext hs rfl) ?_
      refine (List.map_congr_left (fun j _ => ?_) : List.map _ _ = List.map _ _) ▸ this
      simp only [Function.comp, Nat.succ_eq_add_one]
      rw [show k + 1 + j = k + (j + 1) by omega]
  have := all us 0 [] p0.renderer rfl (by simp) .start
  simpa only [Nat.zero_add] using this

/-- **C41 (nothing is changed, samples).** Let a sequence be transmitted of which every mix presentation plays one audio element: of one
layer, coded as LPCM, at 0 dB and without parameter blocks.  Let it be played to a sound system with the loudspeakers of that layer.  Then
all temporal units are rendered, and each of them to exactly the samples, without those trimmed, that the LPCM encoder was given for it
(as far as the sample size keeps them): every channel at its place, in every temporal unit. -/
theorem C41_lossless_samples (M : GainMath Rat) (hM : M.linear 0 = 1) (E : RenderEnv) (hE : GoodEnv E) (C : Codecs) (t : TrimmingSettings)
    (s : DecoderSettings) (d : SequenceObus) (x : Descriptors) (n : UInt32) (us : List TemporalUnitView) (delimiters : Bool)
    (h : Transmitted d x n us delimiters) (i : UInt32) (e : ElementWithData) (he : x.elements.lookup i = some e) (c : CodecObu)
    (pcm : LpcmConfig) (order : List Label) (hp : PlainPcm e c pcm order)
    (hmix : ∀ m ∈ x.mixes, ∀ s ∈ m.subMixes, ∃ a, s.elements = [a] ∧ a.id = i ∧ NoGain a.mixGain c.outputRate ∧
      NoGain s.outputMixGain c.outputRate)
    (p0 : Processor (standardBackend M E C t)) (hi : initAll s x = .ok p0) (sys r : UInt8) (hlay : p0.layout = ⟨2, .soundSystem sys r⟩)
    (hfit : Fits order (systemPlaces sys)) (hb : ∀ u ∈ us, u.blocks = []) (input : Nat → Label → List Int32)
    (hlen : ∀ k < us.length, ∀ l ∈ order, (input k l).length = n.toNat)
    (henc : ∀ k (hk : k < us.length), ∀ f ∈ us[k].frames, ∀ labels, e.data.labels.lookup f.frame.substreamId = some labels →
      EncodedFrom pcm n labels (input k) f.frame.audioFrame)
    (start stop : Nat → UInt32) (htrim : ∀ k (hk : k < us.length), ∀ f ∈ us[k].frames, f.frame.substreamId ∈ e.obu.substreamIds →
      f.header.trimStart = start k ∧ f.header.trimEnd = stop k) (ticks : Nat → Nat)
    (hticks : ∀ k < us.length, (if t.beginning then (start k).toNat else 0) + ticks k + (if t.ending then (stop k).toNat else 0) = n.toNat) :
    Renders (standardBackend M E C t) p0.renderer (unitsBack x n 0 [] us)
      ((List.range us.length).map fun k =>
        inputSamples pcm.sampleSize order (input k) (if t.beginning then (start k).toNat else 0) (ticks k)) := by
  obtain ⟨-, reserved, layer, hcfg, hord⟩ := hp.channels
  have hfin := transmitted_labels h he hp.channels.1 _ hcfg
  obtain ⟨-, hcounts⟩ := plain_counts hfin
  have hall : ∀ y ∈ allLabels e.data.labels, y ∈ order := fun y hy =>
    (List.mem_filter.mp ((C39_no_channel_is_lost _ _ layer rfl e.data hfin order hord).mem_iff.mpr hy)).1
  refine lossless_samples M hM E hE C t s d x n us delimiters h i e he c pcm order hp hmix p0 hi sys r hlay hfit hb input hlen ?_ start stop htrim ticks hticks
  intro k hk f hf labels hl
  exact (henc k hk f hf labels hl).codedAs (hcounts _ _ (mem_of_lookup hl)) fun y hy =>
    hlen k hk y (hall y (List.mem_flatMap.mpr ⟨_, mem_of_lookup hl, hy⟩))

/-! ### Bytes -/

/-- What is left of an integer sample after it was coded with `size` bits and is given out with 16 (type 1) or 32 (type 2) bits. -/
def delivered (size : UInt8) (sampleType : Nat) (v : Int32) : Int :=
  v.toInt / 2 ^ (32 - size.toNat) * 2 ^ (32 - size.toNat) / 2 ^ (32 - 16 * sampleType)

/-- The bytes that a temporal unit is given out as: the samples `input` of the channels `order`, without the first `start`, interleaved,
in integers of 16 or 32 bits, little-endian; channels that are left out are silent. -/
def DeliveredUnit (size : UInt8) (sampleType : Nat) (order : List Label) (input : Label → List Int32) (start ticks : Nat)
    (bytes : List UInt8) : Prop :=
  bytes.length = order.length * ticks * (2 * sampleType) ∧
  ∀ (c i : Nat) (l : Label), order[c]? = some l → i < ticks →
    leInt ((bytes.drop ((i * order.length + c) * (2 * sampleType))).take (2 * sampleType)) =
      if l = .omitted then 0 else delivered size sampleType ((input l).getD (start + i) 0)

/-- As long as no bit is left out in coding or at the output, the integers are those that went in, of 16 or 32 bits. -/
theorem C41_no_bit_is_lost (size : UInt8) (sampleType : Nat) (v : Int32) (hv : (2 ^ (32 - size.toNat) : Int) ∣ v.toInt)
    (hs : (2 ^ (32 - 16 * sampleType) : Int) ∣ v.toInt) : delivered size sampleType v * 2 ^ (32 - 16 * sampleType) = v.toInt := by
  unfold delivered
  rw [Int.ediv_mul_cancel hv, Int.ediv_mul_cancel hs]

private theorem kept_output (size : UInt8) (h : size = 16 ∨ size = 24 ∨ size = 32) (v : Int32) :
    (normalizedToInt32 (kept size v)).toInt = v.toInt / 2 ^ (32 - size.toNat) * 2 ^ (32 - size.toNat) := by
  obtain ⟨z, hz⟩ : ∃ z, z = v.toInt / 2 ^ (32 - size.toNat) * 2 ^ (32 - size.toNat) := ⟨_, rfl⟩
  have hlo := v.le_toInt
  have hhi := v.toInt_lt
  simp only [Int.reducePow, Int.reduceNeg, Int.reduceSub] at hlo hhi
  have hr : -2147483648 ≤ z ∧ z ≤ 2147483647 := by
    rw [hz]
    rcases h with rfl | rfl | rfl
    · rw [show (2 : Int) ^ (32 - UInt8.toNat 16) = 65536 by decide]; omega
    · rw [show (2 : Int) ^ (32 - UInt8.toNat 24) = 256 by decide]; omega
    · rw [show (2 : Int) ^ (32 - UInt8.toNat 32) = 1 by decide]; omega
  have hw : (Int32.ofInt z).toInt = z := Int32.toInt_ofInt_of_le (by simpa using hr.1) (by simp; omega)
  have : kept size v = int32ToNormalized (Int32.ofInt z) := by
    unfold kept int32ToNormalized
    rw [hw, ← hz]
    norm_num
  rw [this, C32_integers_come_back, hw, hz]

private theorem zero_output : (normalizedToInt32 0).toInt = 0 := by decide +kernel

private theorem system_channels (sys : UInt8) : (systemPlaces sys).length ≤ 24 := by
  have : ∀ n < 256, (systemPlaces (UInt8.ofNat n)).length ≤ 24 := by decide +kernel
  have := this sys.toNat sys.toNat_lt
  rwa [UInt8.ofNat_toNat] at this

private theorem unit_bytes (size : UInt8) (hsize : size = 16 ∨ size = 24 ∨ size = 32) (sampleType : Nat)
    (ht : sampleType = 1 ∨ sampleType = 2) (order : List Label) (hne : order ≠ []) (hl : order.length ≤ 24) (input : Label → List Int32)
    (start ticks : Nat) (htk : ticks < 4294967296) :
    ∃ bytes, OutputBytes sampleType (inputSamples size order input start ticks) bytes ∧
      DeliveredUnit size sampleType order input start ticks bytes := by
  have hlen : (inputSamples size order input start ticks).length = order.length := by simp [inputSamples]
  have hch : ∀ c ∈ inputSamples size order input start ticks, c.length = ticks := by
    intro c hc
    obtain ⟨l, -, rfl⟩ := List.mem_map.mp hc
    simp
  have hmax : order.length * ticks * (2 * sampleType) ≤ 18446744073709551615 := by
    have h1 : order.length * ticks ≤ 24 * 4294967296 := Nat.mul_le_mul hl (by omega)
    have h2 : 2 * sampleType ≤ 4 := by omega
    have := Nat.mul_le_mul h1 h2
    omega
  obtain ⟨bytes, h1, h2, h3⟩ := C32_frames_are_interleaved (inputSamples size order input start ticks) ticks sampleType
    (order.length * ticks * (2 * sampleType)) (by intro h; apply hne; unfold inputSamples at h; simpa using h) hch ht (by rw [hlen]) hmax
  rw [hlen] at h2
  refine ⟨bytes, ?_, h2, ?_⟩
  · unfold OutputBytes
    rw [h2]
    exact h1
  · intro c i l hc hi
    obtain ⟨hc', hcl⟩ := List.getElem?_eq_some_iff.mp hc
    have := h3 c i (by rw [hlen]; exact hc') hi
    have hv : ((inputSamples size order input start ticks)[c]'(by rw [hlen]; exact hc'))[i]'(by
        rw [hch _ (List.getElem_mem _)]; exact hi) = if l = .omitted then 0 else kept size ((input l).getD (start + i) 0) := by
      simp only [inputSamples, List.getElem_map, List.getElem_range, hcl]
    rw [hv] at this
    rw [← hlen, this]
    split
    · rw [zero_output]; simp
    · rw [kept_output size hsize]
      rfl

/-- What the temporal units are rendered to, and the bytes that are given out for it. -/
theorem lossless_outputs (M : GainMath Rat) (hM : M.linear 0 = 1) (E : RenderEnv) (hE : GoodEnv E) (C : Codecs) (t : TrimmingSettings)
    (s : DecoderSettings) (hst : s.sampleType = 1 ∨ s.sampleType = 2)
    (d : SequenceObus) (x : Descriptors) (n : UInt32) (us : List TemporalUnitView) (delimiters : Bool)
    (h : Transmitted d x n us delimiters) (i : UInt32) (e : ElementWithData) (he : x.elements.lookup i = some e) (c : CodecObu)
    (pcm : LpcmConfig) (order : List Label) (hp : PlainPcm e c pcm order) (hpcm : ValidLpcm pcm)
    (hmix : ∀ m ∈ x.mixes, ∀ s ∈ m.subMixes, ∃ a, s.elements = [a] ∧ a.id = i ∧ NoGain a.mixGain c.outputRate ∧
      NoGain s.outputMixGain c.outputRate)
    (p0 : Processor (standardBackend M E C t)) (hi : initAll s x = .ok p0) (sys r : UInt8) (hlay : p0.layout = ⟨2, .soundSystem sys r⟩)
    (hfit : Fits order (systemPlaces sys)) (hb : ∀ u ∈ us, u.blocks = []) (input : Nat → Label → List Int32)
    (hlen : ∀ k < us.length, ∀ l ∈ order, (input k l).length = n.toNat)
    (henc : ∀ k (hk : k < us.length), ∀ f ∈ us[k].frames, ∀ labels, e.data.labels.lookup f.frame.substreamId = some labels →
      CodedAs pcm n labels (input k) f.frame.audioFrame)
    (start stop : Nat → UInt32) (htrim : ∀ k (hk : k < us.length), ∀ f ∈ us[k].frames, f.frame.substreamId ∈ e.obu.substreamIds →
      f.header.trimStart = start k ∧ f.header.trimEnd = stop k) (ticks : Nat → Nat)
    (hticks : ∀ k < us.length, (if t.beginning then (start k).toNat else 0) + ticks k + (if t.ending then (stop k).toNat else 0) = n.toNat) :
    ∃ (xs : List Rendered) (bs : List (List UInt8)), Renders (standardBackend M E C t) p0.renderer (unitsBack x n 0 [] us) xs ∧
      List.Forall₂ (OutputBytes s.sampleType) xs bs ∧ bs.length = us.length ∧
      (∀ k (hk : k < bs.length), DeliveredUnit pcm.sampleSize s.sampleType order (input k) (if t.beginning then (start k).toNat else 0)
        (ticks k) bs[k]) ∧
      ∀ y ∈ xs, y.length = order.length ∧ ∃ ticks ≤ n.toNat, ∀ c ∈ y, c.length = ticks := by
  have hr := lossless_samples M hM E hE C t s d x n us delimiters h i e he c pcm order hp hmix p0 hi sys r hlay hfit hb input hlen henc
    start stop htrim ticks hticks
  have hne : order ≠ [] := by
    obtain ⟨-, _, layer, -, hord⟩ := hp.channels
    obtain ⟨y, hy, -⟩ := ordered_sound hord
    exact List.ne_nil_of_mem hy
  have hol : order.length ≤ 24 := by
    rw [hfit.length_eq]
    exact system_channels sys
  have hex : ∀ k : Nat, ∃ b : List UInt8, k < us.length →
      OutputBytes s.sampleType (inputSamples pcm.sampleSize order (input k) (if t.beginning then (start k).toNat else 0) (ticks k)) b ∧
      DeliveredUnit pcm.sampleSize s.sampleType order (input k) (if t.beginning then (start k).toNat else 0) (ticks k) b := by
    intro k
    by_cases hk : k < us.length
    · obtain ⟨b, h1, h2⟩ := unit_bytes pcm.sampleSize hpcm.2.1 s.sampleType hst order hne hol (input k)
        (if t.beginning then (start k).toNat else 0) (ticks k) (by have := hticks k hk; have := n.toNat_lt; omega)
      exact ⟨b, fun _ => ⟨h1, h2⟩⟩
    · exact ⟨[], fun h => absurd h hk⟩
  choose b hbk using hex
  have hfor : List.Forall₂ (OutputBytes s.sampleType) ((List.range us.length).map fun k =>
        inputSamples pcm.sampleSize order (input k) (if t.beginning then (start k).toNat else 0) (ticks k)) ((List.range us.length).map b) := by
    rw [List.forall₂_map_left_iff, List.forall₂_map_right_iff]
    exact List.forall₂_same.mpr fun k hk => (hbk k (List.mem_range.mp hk)).1
  refine ⟨_, (List.range us.length).map b, hr, hfor, by simp, ?_, ?_⟩
  · intro k hk
    simp only [List.length_map, List.length_range] at hk
    simp only [List.getElem_map, List.getElem_range]
    exact (hbk k hk).2
  · intro y hy
    obtain ⟨k, hk, rfl⟩ := List.mem_map.mp hy
    have := hticks k (List.mem_range.mp hk)
    refine ⟨by simp [inputSamples], ticks k, by omega, fun c hc => ?_⟩
    unfold inputSamples at hc
    obtain ⟨l, -, rfl⟩ := List.mem_map.mp hc
    simp

/-- `C41_lossless_file` for the bytes of descriptors and of temporal units, whose frames decode to the samples. -/
theorem lossless_bytes (M : GainMath Rat) (hM : M.linear 0 = 1) (E : RenderEnv) (hE : GoodEnv E) (C : Codecs) (t : TrimmingSettings)
    (s : DecoderSettings) (ha : s.android = false) (hst : s.sampleType = 1 ∨ s.sampleType = 2)
    (d : SequenceObus) (x : Descriptors) (n : UInt32) (us : List TemporalUnitView) (delimiters : Bool)
    (h : Transmitted d x n us delimiters) (i : UInt32) (e : ElementWithData) (he : x.elements.lookup i = some e) (c : CodecObu)
    (pcm : LpcmConfig) (order : List Label) (hp : PlainPcm e c pcm order) (hpcm : ValidLpcm pcm)
    (hmix : ∀ m ∈ x.mixes, ∀ s ∈ m.subMixes, ∃ a, s.elements = [a] ∧ a.id = i ∧ NoGain a.mixGain c.outputRate ∧
      NoGain s.outputMixGain c.outputRate)
    (p0 : Processor (standardBackend M E C t)) (hi : initAll s x = .ok p0) (sys r : UInt8) (hlay : p0.layout = ⟨2, .soundSystem sys r⟩)
    (hfit : Fits order (systemPlaces sys)) (hb : ∀ u ∈ us, u.blocks = []) (input : Nat → Label → List Int32)
    (hlen : ∀ k < us.length, ∀ l ∈ order, (input k l).length = n.toNat)
    (henc : ∀ k (hk : k < us.length), ∀ f ∈ us[k].frames, ∀ labels, e.data.labels.lookup f.frame.substreamId = some labels →
      CodedAs pcm n labels (input k) f.frame.audioFrame)
    (start stop : Nat → UInt32) (htrim : ∀ k (hk : k < us.length), ∀ f ∈ us[k].frames, f.frame.substreamId ∈ e.obu.substreamIds →
      f.header.trimStart = start k ∧ f.header.trimEnd = stop k) (ticks : Nat → Nat)
    (hticks : ∀ k < us.length, (if t.beginning then (start k).toNat else 0) + ticks k + (if t.ending then (stop k).toNat else 0) = n.toNat)
    (g : LebGen) {descriptors : List UInt8} {units : List (List UInt8)} (hdb : DescriptorBytes g d descriptors)
    (hub : List.Forall₂ (UnitBytes g delimiters) us units) (hl : (descriptors ++ units.flatten).length ≤ 4194304) :
    ∃ bs : List (List UInt8), bs.length = us.length ∧
      (∀ k (hk : k < bs.length), DeliveredUnit pcm.sampleSize s.sampleType order (input k) (if t.beginning then (start k).toNat else 0)
        (ticks k) bs[k]) ∧
      ∀ (cs : List DecoderCall) (pv : Bool), fedBytes cs = descriptors ++ units.flatten → EndsLast cs →
        (∀ size, .getOutput size ∈ cs → ∀ b ∈ bs, b.length ≤ size) → ∀ rounds size : Nat, (descriptors ++ units.flatten).length + 2 ≤ rounds →
        (∀ b ∈ bs, b.length ≤ size) →
        AllOk (decoding (standardBackend M E C t) s pv (cs ++ finish rounds size)).1 ∧
        given (decoding (standardBackend M E C t) s pv (cs ++ finish rounds size)).1 = bs.filter (!·.isEmpty) := by
  obtain ⟨xs, bs, hr, hfor, l1, l2, -⟩ := lossless_outputs M hM E hE C t s hst d x n us delimiters h i e he c pcm order hp hpcm hmix p0 hi sys r hlay hfit hb
    input hlen henc start stop htrim ticks hticks
  refine ⟨bs, l1, l2, ?_⟩
  intro cs pv h1 h2 h3 rounds size h4 h5
  exact decoded_every_way (standardBackend M E C t) s ha d x n us delimiters h g hdb hub hl p0 hi _ hr
    _ hfor cs pv h1 h2 h3 rounds size h4 h5

/-- **C41 (nothing is changed, files).** The same for a file and a decoder, in integers: the sequence is written to a file, the file is given
to a decoder in any pieces, with calls for output in between in any way.  Then no call fails, and what the decoder gives out is, unit by
unit, the samples that the LPCM encoder was given, interleaved, except for those that are trimmed and for the bits that the sample size of
the codec or of the output leaves out. -/
theorem C41_lossless_file (M : GainMath Rat) (hM : M.linear 0 = 1) (E : RenderEnv) (hE : GoodEnv E) (C : Codecs) (t : TrimmingSettings)
    (s : DecoderSettings) (ha : s.android = false) (hst : s.sampleType = 1 ∨ s.sampleType = 2)
    (d : SequenceObus) (x : Descriptors) (n : UInt32) (us : List TemporalUnitView) (delimiters : Bool)
    (h : Transmitted d x n us delimiters) (i : UInt32) (e : ElementWithData) (he : x.elements.lookup i = some e) (c : CodecObu)
    (pcm : LpcmConfig) (order : List Label) (hp : PlainPcm e c pcm order) (hpcm : ValidLpcm pcm)
    (hmix : ∀ m ∈ x.mixes, ∀ s ∈ m.subMixes, ∃ a, s.elements = [a] ∧ a.id = i ∧ NoGain a.mixGain c.outputRate ∧
      NoGain s.outputMixGain c.outputRate)
    (p0 : Processor (standardBackend M E C t)) (hi : initAll s x = .ok p0) (sys r : UInt8) (hlay : p0.layout = ⟨2, .soundSystem sys r⟩)
    (hfit : Fits order (systemPlaces sys)) (hb : ∀ u ∈ us, u.blocks = []) (input : Nat → Label → List Int32)
    (hlen : ∀ k < us.length, ∀ l ∈ order, (input k l).length = n.toNat)
    (henc : ∀ k (hk : k < us.length), ∀ f ∈ us[k].frames, ∀ labels, e.data.labels.lookup f.frame.substreamId = some labels →
      EncodedFrom pcm n labels (input k) f.frame.audioFrame)
    (start stop : Nat → UInt32) (htrim : ∀ k (hk : k < us.length), ∀ f ∈ us[k].frames, f.frame.substreamId ∈ e.obu.substreamIds →
      f.header.trimStart = start k ∧ f.header.trimEnd = stop k) (ticks : Nat → Nat)
    (hticks : ∀ k < us.length, (if t.beginning then (start k).toNat else 0) + ticks k + (if t.ending then (stop k).toNat else 0) = n.toNat)
    (g : LebGen) (f : FileOutput) (hn : f.named = true) (hpos : f.position = none) (last : List SequencerCall)
    (hlast : last = [] ∨ last = [.close])
    (hok : Succeeded (writing g delimiters f (.pushDescriptors d :: us.map .pushUnit ++ last)).1) (file : List UInt8)
    (hfile : fileAfter g delimiters f (.pushDescriptors d :: us.map .pushUnit ++ last) = some file) (hl : file.length ≤ 4194304) :
    ∃ bs : List (List UInt8), bs.length = us.length ∧
      (∀ k (hk : k < bs.length), DeliveredUnit pcm.sampleSize s.sampleType order (input k) (if t.beginning then (start k).toNat else 0)
        (ticks k) bs[k]) ∧
      ∀ (cs : List DecoderCall) (pv : Bool), fedBytes cs = file → EndsLast cs →
        (∀ size, .getOutput size ∈ cs → ∀ b ∈ bs, b.length ≤ size) → ∀ rounds size : Nat, file.length + 2 ≤ rounds →
        (∀ b ∈ bs, b.length ≤ size) →
        AllOk (decoding (standardBackend M E C t) s pv (cs ++ finish rounds size)).1 ∧
        given (decoding (standardBackend M E C t) s pv (cs ++ finish rounds size)).1 = bs.filter (!·.isEmpty) := by
  obtain ⟨descriptors, units, h1, h2, h3⟩ := C34_file_of_a_sequence g delimiters f hn hpos d us last hlast hok
  rw [hfile, Option.some.injEq] at h3
  subst h3
  obtain ⟨-, reserved, layer, hcfg, hord⟩ := hp.channels
  have hfin := transmitted_labels h he hp.channels.1 _ hcfg
  obtain ⟨-, hcounts⟩ := plain_counts hfin
  have hall : ∀ y ∈ allLabels e.data.labels, y ∈ order := fun y hy =>
    (List.mem_filter.mp ((C39_no_channel_is_lost _ _ layer rfl e.data hfin order hord).mem_iff.mpr hy)).1
  refine lossless_bytes M hM E hE C t s ha hst d x n us delimiters h i e he c pcm order hp hpcm hmix p0 hi sys r hlay hfit hb input hlen ?_ start stop htrim
    ticks hticks g h1 h2 hl
  intro k hk f hf labels hl
  exact (henc k hk f hf labels hl).codedAs (hcounts _ _ (mem_of_lookup hl)) fun y hy =>
    hlen k hk y (hall y (List.mem_flatMap.mpr ⟨_, mem_of_lookup hl, hy⟩))

end Iamf.Props
