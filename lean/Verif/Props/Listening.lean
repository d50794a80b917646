import Verif.Cli.Listener
import Verif.Props.FinalizerCalls
import Verif.Props.Encoder
/-
  C55: the loudness that the encoder writes is measured on the sound that it was given.
-/
namespace Iamf.Props
open Iamf

variable {M : GainMath Rat} {C : Codecs} {Q : Meters} {S : PostProcessors} {validate : Bool} {recon : HeardFrames → UInt32 → ReconSource}

/-! ### Specification -/

/-- A frame with the samples that were encoded. -/
def beforeEncoding (f : GenFrame × List UInt8) : DecodedFrame := (GenFrame.proc f, f.1.samples)

/-- A temporal unit as it is rendered for measuring: with the samples before encoding, and the parameter blocks that are written. -/
structure OriginalUnit (elements : List (UInt32 × ElementWithData)) (p : UnitParts) (u : UnitToRender) : Prop where
  time : ∀ f ∈ p.frames.head?, u.start = f.1.start ∧ u.stop = f.1.stop
  blocks : u.blocks = p.blocks
  sound : ∀ i e, elements.lookup i = some e → (∃ f ∈ p.frames, (e.data.labels.lookup f.1.substream).isSome = true) →
    ∃ x, u.frames i = some x ∧ DemixedTo e (p.frames.map beforeEncoding) x

/-! ### Proof -/

private theorem bind_ok {α β : Type} {x : Except Err α} {f : α → Except Err β} {b : β} (h : (x >>= f) = .ok b) :
    ∃ a, x = .ok a ∧ f a = .ok b := by
  cases x with
  | error e => cases h
  | ok a => exact ⟨a, rfl, h⟩

/-- What the demixing manager is made of. -/
private theorem listen_entries : ∀ (es : List (UInt32 × ElementWithData)) {l l' : Listener C}, listenTo C es l = .ok l' →
    ∃ ds, l'.demixing = l.demixing ++ ds ∧ List.Forall₂ (fun (x : UInt32 × ElementWithData) d => createDemixEntry x.1 x.2 = .ok d) es ds := by
  intro es
  induction es with
  | nil =>
    intro l l' h
    cases h
    exact ⟨[], by simp, .nil⟩
  | cons a es ih =>
    obtain ⟨id, e⟩ := a
    intro l l' h
    unfold listenTo at h
    obtain ⟨x, h1, h⟩ := bind_ok h
    have key : ∃ l1 : Listener C, l1.demixing = l.demixing ++ [x] ∧ listenTo C es l1 = .ok l' := by
      cases hc : e.codec with
      | none => rw [hc] at h; exact ⟨_, rfl, h⟩
      | some c =>
        rw [hc] at h
        obtain ⟨ds, -, h⟩ := bind_ok h
        exact ⟨_, rfl, h⟩
    obtain ⟨l1, k1, k2⟩ := key
    obtain ⟨ds, d1, d2⟩ := ih k2
    exact ⟨x :: ds, by rw [d1, k1]; simp, .cons h1 d2⟩

private theorem entry_id {i : UInt32} {e : ElementWithData} {d : DemixEntry} (h : createDemixEntry i e = .ok d) : d.id = i := by
  obtain ⟨ls, -, h⟩ := bind_ok h
  cases h
  rfl

private theorem entries_ids {es : List (UInt32 × ElementWithData)} {ds : List DemixEntry}
    (h : List.Forall₂ (fun (x : UInt32 × ElementWithData) d => createDemixEntry x.1 x.2 = .ok d) es ds) : ds.map (·.id) = es.map Prod.fst := by
  induction h with
  | nil => rfl
  | cons h1 _ ih => simp only [List.map_cons, ih, entry_id h1]

private theorem entries_mem {es : List (UInt32 × ElementWithData)} {ds : List DemixEntry}
    (h : List.Forall₂ (fun (x : UInt32 × ElementWithData) d => createDemixEntry x.1 x.2 = .ok d) es ds) {i : UInt32} {e : ElementWithData}
    (he : es.lookup i = some e) : ∃ d ∈ ds, createDemixEntry i e = .ok d := by
  induction h with
  | nil => cases he
  | @cons a b es ds h1 _ ih =>
    obtain ⟨k, v⟩ := a
    rw [List.lookup_cons] at he
    by_cases hk : i = k
    · subst hk
      simp only [beq_self_eq_true, Option.some.injEq] at he
      subst he
      exact ⟨_, List.mem_cons_self, h1⟩
    · rw [beq_eq_false_iff_ne.mpr hk] at he
      obtain ⟨d, hd, h2⟩ := ih he
      exact ⟨d, List.mem_cons_of_mem _ hd, h2⟩

/-- The units that were heard are given to the finalizer, one by one. -/
theorem heard_units {L : EncoderLib} {σ : Type} {s : EncoderSetup L (standardParts M C Q S validate recon) σ}
    (hl : listenTo C s.elements ⟨[], []⟩ = .ok s.decoders) (hn : (s.elements.map Prod.fst).Nodup)
    {heard : List (UnitParts × (standardParts M C Q S validate recon).Frames)} {d : (standardParts M C Q S validate recon).Decoders}
    {f : (standardParts M C Q S validate recon).Finalizer} (h : Heard s heard d f) :
    Listener.demixing d = Listener.demixing s.decoders ∧
    ∃ us, List.Forall₂ (OriginalUnit s.elements) (heard.map Prod.fst) us ∧ Pushed (Q := Q) (S := S) M s.finalizer us f := by
  induction h with
  | nil => exact ⟨rfl, [], .nil, .nil⟩
  | @snoc us d d' f f' p a x l _ h1 h2 h3 ih =>
    obtain ⟨i1, us', i2, i3⟩ := ih
    obtain ⟨r, a1, h2⟩ := bind_ok (show (decodeGenerated p.frames (Listener.decoders d) >>= _) = .ok (a, d') from h2)
    obtain ⟨original, a2, h2⟩ := bind_ok h2
    obtain ⟨decoded, -, h2⟩ := bind_ok h2
    cases h2
    refine ⟨i1, ?_⟩
    rw [i1] at a2
    obtain ⟨ds, e1, e2⟩ := listen_entries _ hl
    rw [List.nil_append] at e1
    change demixAll (p.frames.map beforeEncoding) (Listener.demixing s.decoders) = .ok original at a2
    rw [e1] at a2
    obtain ⟨u, hu⟩ : ∃ u : UnitToRender, u = ⟨fun id => original.lookup id, x.1.start, x.1.stop, p.blocks⟩ := ⟨_, rfl⟩
    refine ⟨us' ++ [u], ?_, .snoc i3 (h := f') (u := u) ?_⟩
    · rw [List.map_append]
      refine List.rel_append i2 (.cons ⟨?_, by rw [hu], ?_⟩ .nil)
      · intro f hf
        rw [h1] at hf
        cases hf
        rw [hu]
        exact ⟨rfl, rfl⟩
      · rintro i e he ⟨f, hf, hfl⟩
        obtain ⟨d, hd, h4⟩ := entries_mem e2 he
        have h5 := demixAll_frames a2 (by rw [entries_ids e2]; exact hn) d hd
        obtain ⟨y, h6, h7⟩ := demixed_to h4 h5 (beforeEncoding f) (List.mem_map_of_mem hf) hfl
        rw [entry_id h4] at h6
        exact ⟨y, by rw [hu]; exact h6, h7⟩
    · rw [hu]
      change (match Finalizer.push (Q := Q) (S := S) M ⟨fun id => original.lookup id, x.1.start, x.1.stop, p.blocks⟩ f with
        | (.ok (), f) => Except.ok f
        | (.error e, _) => .error e) = .ok f' at h3
      match hp : Finalizer.push (Q := Q) (S := S) M ⟨fun id => original.lookup id, x.1.start, x.1.stop, p.blocks⟩ f with
      | (.error e, g) => rw [hp] at h3; cases h3
      | (.ok (), g) => rw [hp] at h3; cases h3; rfl

/-- **C55.** When the encoder is done, its descriptors are those it was created with, except that the loudness of the mix presentations is the one
measured (C54) on the sound that was encoded, rendered with the parameter blocks that were written, unit by unit. -/
theorem C55_loudness_of_what_was_encoded {L : EncoderLib} {σ : Type} {K : Sink σ} {linear : Int16 → Rat} {E : RenderEnv} {t : TrimmingSettings}
    {s : EncoderSetup L (standardParts M C Q S validate recon) σ} (hl : listenTo C s.elements ⟨[], []⟩ = .ok s.decoders)
    (hn : (s.elements.map Prod.fst).Nodup) (hf : NewFinalizer E t s.elements s.descriptors.mixes (s.finalizer : Finalizer Q S))
    {e0 e : IamfEncoder L (standardParts M C Q S validate recon) σ} (h0 : s.create K = .ok e0) (cs : List IamfEncoderCall)
    {answers : List IamfEncoderAnswer} (h1 : e0.calls K linear cs = .ok (answers, e)) (hm : ∀ u, .encode u ∈ cs → ∀ b ∈ u.blocks, ProperMetadata b)
    (ho : s.override = false → ∀ definitions, s.definitions = .ok definitions → ∀ id d, definitions.lookup id = some d → OnePerPlace d) :
    ∃ evs, evs.map (·.call) = cs ∧ evs.map (·.answer) = answers ∧ (finalizedIn evs = true ∧ e.generating = false →
      ∃ us mixes bytes, List.Forall₂ (OriginalUnit s.elements) ((unitsIn evs).filter fun p => !p.frames.isEmpty) us ∧
        List.Forall₂ (FinalizedAs E t Q S M s.elements us validate) s.descriptors.mixes mixes ∧
        e.descriptorObus false = .ok (bytes, true) ∧ DescriptorBytes s.lebs (withMixes s.descriptors mixes) bytes) := by
  obtain ⟨definitions, generator, evs, heard, g1, g2, g3, g4, hist⟩ := C47_runs_are_histories K linear s h0 cs h1 hm ho
  refine ⟨evs, g3, g4, fun hdone => ?_⟩
  obtain ⟨k1, k2⟩ := hist.sounds
  obtain ⟨-, us, u1, u2⟩ := heard_units hl hn k1
  rw [k2] at u1
  obtain ⟨bytes, b1, b2⟩ := hist.descriptors
  rw [if_pos hdone] at b2
  obtain ⟨mixes, m1, m2⟩ := b2
  rw [hdone.1, hdone.2] at b1
  refine ⟨us, mixes, bytes, u1, ?_, b1, m2⟩
  change (match Finalizer.finish (Q := Q) (S := S) e.finalizer with
    | (.error e, _) => Except.error e
    | (.ok (), f) => (f.get validate).1) = .ok mixes at m1
  match hfin : Finalizer.finish (Q := Q) (S := S) e.finalizer with
  | (.error err, f2) => rw [hfin] at m1; cases m1
  | (.ok (), f2) =>
    rw [hfin] at m1
    exact (C54_measured_loudness hf u2 hfin validate).1 mixes _ (Prod.ext m1 rfl)

end Iamf.Props
