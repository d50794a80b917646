import Verif.Props.Wav
import Verif.Props.RoundTrip
/-
  C56: what the program gives to the encoder.
-/
namespace Iamf.Props
open Iamf

variable {L : EncoderLib} {P : EncoderParts} {σ : Type} {W : WavLib} {K : Sink σ} {linear : Int16 → Rat}

/-! ### Specification -/

/-- An iteration of the program: the timestamp that the encoder reported, what was given to `Encode`, whether `FinalizeEncode` was called then, and the order in which the
encoder iterated over its samples in `OutputTemporalUnit`. -/
structure ToolTurn where
  time : Int
  input : UnitInput
  last : Bool
  rank : UInt32 × Label → Nat

/-- The calls in an iteration. -/
def ToolTurn.calls (t : ToolTurn) : List IamfEncoderCall := .encode t.input :: ((if t.last then [.finalizeEncode] else []) ++ [.output t.rank []])

/-- All calls in some iterations. -/
def callsOf (turns : List ToolTurn) : List IamfEncoderCall := turns.flatMap ToolTurn.calls

/-- The samples of an iteration before which there were `k`: the `k`-th frame from the WAV file of each audio element.  The iteration is taken for the last if the WAV file of the last element ends. -/
def SamplesOf (content : W.Source → List Int32) (inputs : List (WavInput W)) (elements : List (UInt32 × ElementWithData)) (k : Nat) (t : ToolTurn) : Prop :=
  ∃ reads : List WavRead, reads.map (·.element) = elements.map Prod.fst ∧ (∀ r ∈ reads, ReadOf content inputs elements k r) ∧
    t.input.samples = reads.flatMap (fun r => r.samples.map fun x => ((r.element, x.1), x.2)) ∧ t.last = (reads.getLast?.map (·.finished)).getD false

/-- The metadata of parameter blocks in iterations: what starts at the time is given to the encoder; it is given again in later iterations, until other metadata for the same
parameter starts, or `FinalizeEncode` was called. -/
structure BlocksOf (metadata : List (BlockMetadata ObuHeader)) (turns : List ToolTurn) : Prop where
  known : ∀ (k : Nat) t, turns[k]? = some t → ∀ b ∈ t.input.blocks, b ∈ metadata ∧ ∃ (j : Nat) (u : ToolTurn), j ≤ k ∧ turns[j]? = some u ∧ b.start = u.time ∧
    ∀ (i : Nat) (v : ToolTurn), j ≤ i → i < k → turns[i]? = some v → v.last = false
  once : ∀ t ∈ turns, (t.input.blocks.map (·.id)).Nodup
  given : ∀ t ∈ turns, ∀ before b after, metadata = before ++ b :: after → b.start = t.time → (∀ c ∈ after, c.id = b.id → c.start ≠ t.time) → b ∈ t.input.blocks
  again : ∀ (k : Nat) t u, turns[k]? = some t → turns[k + 1]? = some u → t.last = false → ∀ b ∈ t.input.blocks, (∀ c ∈ metadata, c.id = b.id → c.start ≠ u.time) → b ∈ u.input.blocks

/-! ### Calls -/

theorem encoder_calls_append (as bs : List IamfEncoderCall) : ∀ (e : IamfEncoder L P σ), e.calls K linear (as ++ bs) =
    (e.calls K linear as).bind fun y => (y.2.calls K linear bs).bind fun z => .ok (y.1 ++ z.1, z.2) := by
  induction as with
  | nil =>
    intro e
    simp only [List.nil_append, IamfEncoder.calls, Except.bind]
    cases e.calls K linear bs <;> rfl
  | cons a as ih =>
    intro e
    simp only [List.cons_append, IamfEncoder.calls, bind]
    cases e.call K linear a with
    | error x => rfl
    | ok r =>
      simp only [Except.bind, ih]
      cases r.2.calls K linear as with
      | error x => rfl
      | ok r' =>
        simp only [Except.bind]
        cases r'.2.calls K linear bs <;> rfl

theorem encoder_calls_of {as bs : List IamfEncoderCall} {e e1 e2 : IamfEncoder L P σ} {x y : List IamfEncoderAnswer} (h1 : e.calls K linear as = .ok (x, e1))
    (h2 : e1.calls K linear bs = .ok (y, e2)) : e.calls K linear (as ++ bs) = .ok (x ++ y, e2) := by
  rw [encoder_calls_append, h1]
  simp only [Except.bind, h2]

theorem encoder_calls_split {as bs : List IamfEncoderCall} {e e2 : IamfEncoder L P σ} {z : List IamfEncoderAnswer} (h : e.calls K linear (as ++ bs) = .ok (z, e2)) :
    ∃ e1 x y, e.calls K linear as = .ok (x, e1) ∧ e1.calls K linear bs = .ok (y, e2) ∧ z = x ++ y := by
  rw [encoder_calls_append] at h
  cases h1 : e.calls K linear as with
  | error x => rw [h1] at h; cases h
  | ok r =>
    rw [h1] at h
    simp only [Except.bind] at h
    cases h2 : r.2.calls K linear bs with
    | error x => rw [h2] at h; cases h
    | ok r' =>
      rw [h2] at h
      simp only [Except.ok.injEq, Prod.mk.injEq] at h
      exact ⟨r.2, r.1, r'.1, rfl, by rw [← h.2]; exact h2, h.1.symm⟩

/-! ### The audio elements stay -/

private theorem finalizeDescriptors_elements {e e' : IamfEncoder L P σ} (h : e.finalizeDescriptors = .ok e') : e'.sequence.elements = e.sequence.elements := by
  unfold IamfEncoder.finalizeDescriptors at h
  split at h
  · rw [← Except.ok.inj h]
  · simp only [bind, except_ok] at h
    obtain ⟨m, -, h⟩ := h
    rw [← Except.ok.inj h]

private theorem finalizeSequencers_elements {e e' : IamfEncoder L P σ} (h : e.finalizeSequencers K = .ok e') : e'.sequence.elements = e.sequence.elements := by
  unfold IamfEncoder.finalizeSequencers at h
  split at h
  · rw [← Except.ok.inj h]
  · simp only [bind, except_ok] at h
    obtain ⟨m, -, h⟩ := h
    split at h
    · cases h
    · rw [← Except.ok.inj h]

private theorem pushToSequencers_elements {e e' : IamfEncoder L P σ} {bs : List BlockWithData} {fs : List FrameWithData} {os : List ArbitraryObu} {v : List UInt8}
    (h : e.pushToSequencers K bs fs os = .ok (v, e')) : e'.sequence.elements = e.sequence.elements := by
  unfold IamfEncoder.pushToSequencers at h
  simp only [bind, except_ok] at h
  obtain ⟨u, -, o, -, h⟩ := h
  split at h
  · cases h
  · simp only [Except.ok.injEq, Prod.mk.injEq] at h
    rw [← h.2]

theorem output_elements {e e' : IamfEncoder L P σ} {rank : UInt32 × Label → Nat} {buffer v : List UInt8} (h : e.outputUnit K linear rank buffer = .ok (v, e')) :
    e'.sequence.elements = e.sequence.elements := by
  unfold IamfEncoder.outputUnit at h
  simp only [bind, except_ok] at h
  obtain ⟨⟨fs, e1⟩, h1, h⟩ := h
  have he1 : e1.sequence.elements = e.sequence.elements := by
    unfold IamfEncoder.makeFrames at h1
    simp only [bind, except_ok] at h1
    obtain ⟨d, -, m, -, g, -, r, -, h1⟩ := h1
    simp only [Except.ok.injEq, Prod.mk.injEq] at h1
    rw [← h1.2]
  cases fs with
  | nil =>
    change e1.withoutFrames K buffer = _ at h
    unfold IamfEncoder.withoutFrames at h
    split at h
    · simp only [bind, except_ok] at h
      obtain ⟨e2, h2, ⟨b, e3⟩, h3, h⟩ := h
      have he2 : e2.sequence.elements = e1.sequence.elements := by
        split at h2
        · rw [← Except.ok.inj h2]
        · have := finalizeDescriptors_elements h2
          exact this
      have he3 : e3.sequence.elements = e2.sequence.elements := by
        split at h3
        · simp only [Except.ok.injEq, Prod.mk.injEq] at h3
          rw [← h3.2]
        · exact pushToSequencers_elements h3
      split at h
      · simp only [Except.ok.injEq, Prod.mk.injEq] at h
        rw [← h.2, he3, he2, he1]
      · simp only [except_ok] at h
        obtain ⟨e4, h4, h⟩ := h
        simp only [Except.ok.injEq, Prod.mk.injEq] at h
        rw [← h.2, finalizeSequencers_elements h4, he3, he2, he1]
    · simp only [Except.ok.injEq, Prod.mk.injEq] at h
      rw [← h.2, he1]
  | cons f fs =>
    change e1.withFrames K f fs = _ at h
    unfold IamfEncoder.withFrames at h
    simp only [bind, except_ok] at h
    obtain ⟨a, -, h⟩ := h
    split at h
    · cases h
    simp only [except_ok] at h
    obtain ⟨r, -, fin, -, ⟨b, e2⟩, h2, h⟩ := h
    have he2 := pushToSequencers_elements h2
    split at h
    · simp only [Except.ok.injEq, Prod.mk.injEq] at h
      rw [← h.2, he2]
      exact he1
    · simp only [except_ok] at h
      obtain ⟨e3, h3, e4, h4, h⟩ := h
      simp only [Except.ok.injEq, Prod.mk.injEq] at h
      rw [← h.2, finalizeSequencers_elements h4, finalizeDescriptors_elements h3, he2]
      exact he1

theorem finalizeEncode_elements {e e' : IamfEncoder L P σ} (h : e.finalizeEncode K = .ok e') : e'.sequence.elements = e.sequence.elements := by
  unfold IamfEncoder.finalizeEncode at h
  split at h
  · rw [← Except.ok.inj h]
  · dsimp only at h
    split at h
    · rw [← Except.ok.inj h]
    · simp only [bind, except_ok] at h
      obtain ⟨e1, h1, h⟩ := h
      rw [finalizeSequencers_elements h, finalizeDescriptors_elements h1]

theorem encode_elements {e e' : IamfEncoder L P σ} {u : UnitInput} {x : Except Err Unit} (h : e.encode u = (x, e')) : e'.sequence.elements = e.sequence.elements := by
  unfold IamfEncoder.encode at h
  split at h
  · simp only [Prod.mk.injEq] at h
    rw [← h.2]
  · split at h <;> · simp only [Prod.mk.injEq] at h; rw [← h.2]

/-! ### Metadata that is held -/

private theorem holdBlock_mem {b c : BlockMetadata ObuHeader} : ∀ {l : List (BlockMetadata ObuHeader)}, c ∈ holdBlock b l → c = b ∨ c ∈ l
  | [], h => .inl (List.mem_singleton.mp h)
  | x :: l, h => by
    rw [holdBlock] at h
    split at h
    · rcases List.mem_cons.mp h with h | h
      · exact .inl h
      · exact .inr (List.mem_cons_of_mem _ h)
    · rcases List.mem_cons.mp h with h | h
      · exact .inr (by rw [h]; exact List.mem_cons_self)
      · exact (holdBlock_mem h).imp id (List.mem_cons_of_mem _)

private theorem holdBlock_self (b : BlockMetadata ObuHeader) : ∀ (l : List (BlockMetadata ObuHeader)), b ∈ holdBlock b l
  | [] => List.mem_singleton.mpr rfl
  | x :: l => by
    rw [holdBlock]
    split
    · exact List.mem_cons_self
    · exact List.mem_cons_of_mem _ (holdBlock_self b l)

private theorem holdBlock_other {b c : BlockMetadata ObuHeader} (hc : c.id ≠ b.id) : ∀ {l : List (BlockMetadata ObuHeader)}, c ∈ l → c ∈ holdBlock b l
  | x :: l, h => by
    rw [holdBlock]
    split
    · rename_i hx
      rcases List.mem_cons.mp h with rfl | h
      · exact absurd hx hc
      · exact List.mem_cons_of_mem _ h
    · rcases List.mem_cons.mp h with rfl | h
      · exact List.mem_cons_self
      · exact List.mem_cons_of_mem _ (holdBlock_other hc h)

private theorem holdBlock_ids {b : BlockMetadata ObuHeader} : ∀ {l : List (BlockMetadata ObuHeader)}, (l.map (·.id)).Nodup → ((holdBlock b l).map (·.id)).Nodup
  | [], _ => List.nodup_singleton _
  | x :: l, h => by
    rw [List.map_cons, List.nodup_cons] at h
    rw [holdBlock]
    split
    · rename_i hx
      rw [List.map_cons, List.nodup_cons, ← hx]
      exact h
    · rename_i hx
      rw [List.map_cons, List.nodup_cons]
      refine ⟨fun hm => ?_, holdBlock_ids h.2⟩
      obtain ⟨c, hc, hid⟩ := List.mem_map.mp hm
      rcases holdBlock_mem hc with rfl | hc
      · exact hx hid.symm
      · exact h.1 (List.mem_map.mpr ⟨c, hc, hid⟩)

private theorem hold_mem {c : BlockMetadata ObuHeader} : ∀ (m : List (BlockMetadata ObuHeader)) {l : List (BlockMetadata ObuHeader)},
    c ∈ m.foldl (fun h b => holdBlock b h) l → c ∈ m ∨ c ∈ l
  | [], _, h => .inr h
  | b :: m, l, h => by
    rcases hold_mem m h with h | h
    · exact .inl (List.mem_cons_of_mem _ h)
    · rcases holdBlock_mem h with rfl | h
      · exact .inl List.mem_cons_self
      · exact .inr h

private theorem hold_ids : ∀ (m : List (BlockMetadata ObuHeader)) {l : List (BlockMetadata ObuHeader)}, (l.map (·.id)).Nodup →
    ((m.foldl (fun h b => holdBlock b h) l).map (·.id)).Nodup
  | [], _, h => h
  | _ :: m, _, h => hold_ids m (holdBlock_ids h)

private theorem hold_other {c : BlockMetadata ObuHeader} : ∀ (m : List (BlockMetadata ObuHeader)) {l : List (BlockMetadata ObuHeader)},
    (∀ b ∈ m, b.id ≠ c.id) → c ∈ l → c ∈ m.foldl (fun h b => holdBlock b h) l
  | [], _, _, h => h
  | b :: m, _, hm, h => hold_other m (fun x hx => hm x (List.mem_cons_of_mem _ hx)) (holdBlock_other (fun hc => hm b List.mem_cons_self hc.symm) h)

private theorem holdBlocks_mem {metadata : List (BlockMetadata ObuHeader)} {t : Int} {held : List (BlockMetadata ObuHeader)} {c : BlockMetadata ObuHeader}
    (h : c ∈ holdBlocks metadata t held) : (c ∈ metadata ∧ c.start = t) ∨ c ∈ held := by
  rcases hold_mem _ h with h | h
  · rw [List.mem_filter] at h
    exact .inl ⟨h.1, by simpa using h.2⟩
  · exact .inr h

private theorem holdBlocks_other {metadata : List (BlockMetadata ObuHeader)} {t : Int} {held : List (BlockMetadata ObuHeader)} {c : BlockMetadata ObuHeader}
    (hc : ∀ b ∈ metadata, b.id = c.id → b.start ≠ t) (h : c ∈ held) : c ∈ holdBlocks metadata t held := by
  refine hold_other _ (fun b hb hid => ?_) h
  rw [List.mem_filter] at hb
  exact hc b hb.1 hid (by simpa using hb.2)

private theorem holdBlocks_given {metadata before after : List (BlockMetadata ObuHeader)} {t : Int} {held : List (BlockMetadata ObuHeader)} {b : BlockMetadata ObuHeader}
    (hm : metadata = before ++ b :: after) (hb : b.start = t) (hl : ∀ c ∈ after, c.id = b.id → c.start ≠ t) : b ∈ holdBlocks metadata t held := by
  unfold holdBlocks
  rw [hm, List.filter_append, List.filter_cons_of_pos (by simpa using hb), List.foldl_append, List.foldl_cons]
  refine hold_other _ (fun c hc hid => ?_) (holdBlock_self _ _)
  rw [List.mem_filter] at hc
  exact hl c hc.1 hid (by simpa using hc.2)

/-- Iterations of the program with the metadata that is held before them. -/
def Holding (metadata : List (BlockMetadata ObuHeader)) : List (BlockMetadata ObuHeader) → List ToolTurn → Prop
  | _, [] => True
  | held, t :: ts => t.input.blocks.Perm (holdBlocks metadata t.time held) ∧ Holding metadata (if t.last then [] else holdBlocks metadata t.time held) ts

private theorem holding_known (metadata : List (BlockMetadata ObuHeader)) : ∀ (turns : List ToolTurn) (held : List (BlockMetadata ObuHeader)), Holding metadata held turns →
    ∀ (k : Nat) t, turns[k]? = some t → ∀ b ∈ t.input.blocks,
      (b ∈ held ∧ ∀ (i : Nat) (v : ToolTurn), i < k → turns[i]? = some v → v.last = false) ∨
      b ∈ metadata ∧ ∃ (j : Nat) (u : ToolTurn), j ≤ k ∧ turns[j]? = some u ∧ b.start = u.time ∧ ∀ (i : Nat) (v : ToolTurn), j ≤ i → i < k → turns[i]? = some v → v.last = false
  | [], _, _, k, t, h, _, _ => by simp at h
  | t0 :: ts, held, h, 0, t, ht, b, hb => by
    rw [List.getElem?_cons_zero] at ht
    obtain rfl := Option.some.inj ht
    rcases holdBlocks_mem (h.1.mem_iff.mp hb) with hb | hb
    · exact .inr ⟨hb.1, 0, t0, Nat.le_refl _, rfl, hb.2, fun i v _ hi _ => absurd hi (by omega)⟩
    · exact .inl ⟨hb, fun i v hi _ => absurd hi (by omega)⟩
  | t0 :: ts, held, h, k + 1, t, ht, b, hb => by
    rw [List.getElem?_cons_succ] at ht
    rcases holding_known metadata ts _ h.2 k t ht b hb with ⟨hh, hl⟩ | ⟨hm, j, u, h1, h2, h3, h4⟩
    · cases h0 : t0.last with
      | true => rw [h0] at hh; cases hh
      | false =>
        rw [h0] at hh
        have hall : ∀ (i : Nat) (v : ToolTurn), i < k + 1 → (t0 :: ts)[i]? = some v → v.last = false := by
          intro i v hi hv
          cases i with
          | zero => rw [List.getElem?_cons_zero] at hv; rw [← Option.some.inj hv]; exact h0
          | succ i => exact hl i v (by omega) (by rwa [List.getElem?_cons_succ] at hv)
        rcases holdBlocks_mem hh with hm | hm
        · exact .inr ⟨hm.1, 0, t0, by omega, rfl, hm.2, fun i v _ hi hv => hall i v hi hv⟩
        · exact .inl ⟨hm, hall⟩
    · refine .inr ⟨hm, j + 1, u, by omega, by rwa [List.getElem?_cons_succ], h3, fun i v hji hi hv => ?_⟩
      cases i with
      | zero => omega
      | succ i => exact h4 i v (by omega) (by omega) (by rwa [List.getElem?_cons_succ] at hv)

private theorem holding_at (metadata : List (BlockMetadata ObuHeader)) : ∀ (turns : List ToolTurn) (held : List (BlockMetadata ObuHeader)), Holding metadata held turns →
    (held.map (·.id)).Nodup → ∀ (k : Nat) t, turns[k]? = some t → ∃ h, (h.map (·.id)).Nodup ∧ Holding metadata h (turns.drop k)
  | [], _, _, _, k, t, h => by simp at h
  | t0 :: ts, held, h, hn, 0, t, ht => ⟨held, hn, h⟩
  | t0 :: ts, held, h, hn, k + 1, t, ht => by
    refine holding_at metadata ts _ h.2 ?_ k t (by rwa [List.getElem?_cons_succ] at ht)
    split
    · exact List.nodup_nil
    · exact hold_ids _ hn

private theorem blocks_of {metadata : List (BlockMetadata ObuHeader)} {turns : List ToolTurn} (h : Holding metadata [] turns) : BlocksOf metadata turns := by
  refine ⟨fun k t ht b hb => ?_, fun t ht => ?_, fun t ht before b after hm hb hl => ?_, fun k t u ht hu hlast b hb hc => ?_⟩
  · rcases holding_known metadata turns [] h k t ht b hb with ⟨h1, -⟩ | h1
    · cases h1
    · exact h1
  · obtain ⟨k, hk⟩ := List.getElem?_of_mem ht
    obtain ⟨held, hn, hh⟩ := holding_at metadata turns [] h List.nodup_nil k t hk
    rw [List.drop_eq_getElem_cons (List.getElem?_eq_some_iff.mp hk).1, (List.getElem?_eq_some_iff.mp hk).2] at hh
    exact (hh.1.map (·.id)).nodup_iff.mpr (hold_ids _ hn)
  · obtain ⟨k, hk⟩ := List.getElem?_of_mem ht
    obtain ⟨held, hn, hh⟩ := holding_at metadata turns [] h List.nodup_nil k t hk
    rw [List.drop_eq_getElem_cons (List.getElem?_eq_some_iff.mp hk).1, (List.getElem?_eq_some_iff.mp hk).2] at hh
    exact hh.1.mem_iff.mpr (holdBlocks_given hm hb hl)
  · obtain ⟨held, hn, hh⟩ := holding_at metadata turns [] h List.nodup_nil k t ht
    rw [List.drop_eq_getElem_cons (List.getElem?_eq_some_iff.mp ht).1, (List.getElem?_eq_some_iff.mp ht).2,
      List.drop_eq_getElem_cons (List.getElem?_eq_some_iff.mp hu).1, (List.getElem?_eq_some_iff.mp hu).2] at hh
    obtain ⟨h1, h2, -⟩ := hh
    rw [hlast] at h2
    exact h2.mem_iff.mpr (holdBlocks_other hc (h1.mem_iff.mp hb))

/-! ### Reading all elements -/

private theorem read_all {content : W.Source → List Int32} (hW : HonestWav W content) {inputs : List (WavInput W)} {elements : List (UInt32 × ElementWithData)} (k : Nat) :
    ∀ (ids : List UInt32) (times : UInt32 → Nat) (p : WavProvider W) (f : Bool) (r : List ((UInt32 × Label) × Samples) × Bool × WavProvider W), ids.Nodup → (∀ i ∈ ids, times i = k) →
      ProviderAt content inputs elements times p → WavProvider.readAll ids p f = .ok r →
      ∃ reads : List WavRead, reads.map (·.element) = ids ∧ (∀ x ∈ reads, ReadOf content inputs elements k x) ∧
        r.1 = reads.flatMap (fun r => r.samples.map fun x => ((r.element, x.1), x.2)) ∧ r.2.1 = (reads.getLast?.map (·.finished)).getD f ∧
        ProviderAt content inputs elements (fun j => if j ∈ ids then k + 1 else times j) r.2.2
  | [], times, p, f, r, _, _, hp, h => by
    rw [← Except.ok.inj h]
    exact ⟨[], rfl, by simp, rfl, rfl, by simpa using hp⟩
  | i :: ids, times, p, f, r, hn, ht, hp, h => by
    rw [List.nodup_cons] at hn
    rw [WavProvider.readAll] at h
    rcases provider_read hW hp i with ⟨-, hbad⟩ | ⟨x, q, g1, g2, g3, g4⟩
    · rw [hbad] at h; cases h
    · rw [g1] at h
      simp only [bind, Except.bind] at h
      cases hr : WavProvider.readAll ids q x.finished with
      | error e => rw [hr] at h; cases h
      | ok r' =>
        rw [hr] at h
        simp only [Except.ok.injEq] at h
        subst h
        obtain ⟨reads, m1, m2, m3, m4, m5⟩ := read_all hW k ids _ q x.finished r' hn.2
          (fun j hj => by rw [if_neg (show ¬ j = i from fun h => hn.1 (h ▸ hj))]; exact ht j (List.mem_cons_of_mem _ hj)) g4 hr
        refine ⟨x :: reads, ?_, ?_, ?_, ?_, ?_⟩
        · rw [List.map_cons, m1, g2]
        · intro y hy
          rcases List.mem_cons.mp hy with rfl | hy
          · rw [ht i List.mem_cons_self] at g3; exact g3
          · exact m2 y hy
        · simp only
          rw [List.flatMap_cons, ← m3, g2]
        · simp only
          rw [m4, List.getLast?_cons]
          cases reads.getLast? <;> rfl
        · refine cast ?_ m5
          congr 1
          funext j
          by_cases hj : j ∈ ids
          · rw [if_pos hj, if_pos (List.mem_cons_of_mem _ hj)]
          · rw [if_neg hj]
            by_cases hji : j = i
            · subst hji
              rw [if_pos rfl, if_pos List.mem_cons_self, ht j List.mem_cons_self]
            · rw [if_neg hji, if_neg (by rw [List.mem_cons, not_or]; exact ⟨hji, hj⟩)]

/-! ### The loop -/

/-- The elements of an encoder. -/
def elementsOf (e : IamfEncoder L P σ) : List (UInt32 × ElementWithData) := e.sequence.elements.map fun x => (x.1, x.2.body)

private theorem elements_ids (e : IamfEncoder L P σ) : (elementsOf e).map Prod.fst = e.sequence.elements.map (·.1) := by
  unfold elementsOf
  rw [List.map_map]
  rfl

/-- What an iteration is. -/
private theorem iterate_spec {content : W.Source → List Int32} (hW : HonestWav W content) {inputs : List (WavInput W)} {metadata : List (BlockMetadata ObuHeader)} {o : ToolOrder}
    (ho : ∀ l, (o.blocks l).Perm l) {x y : Tool L P σ W} {elements : List (UInt32 × ElementWithData)} (he : elementsOf x.encoder = elements) (hn : (elements.map Prod.fst).Nodup)
    {k : Nat} (hp : ProviderAt content inputs elements (fun j => if j ∈ elements.map Prod.fst then k else 0) x.provider) (h : x.iterate K linear metadata o = .ok y) :
    ∃ (t : ToolTurn) (answers : List IamfEncoderAnswer), x.encoder.inputTimestamp = .ok t.time ∧ x.encoder.calls K linear t.calls = .ok (answers, y.encoder) ∧
      (∀ a ∈ answers, ∀ e, a ≠ .rejected e) ∧ SamplesOf content inputs elements k t ∧ t.rank = o.rank ∧ t.input.blocks.Perm (holdBlocks metadata t.time x.held) ∧
      y.held = (if t.last then [] else holdBlocks metadata t.time x.held) ∧ elementsOf y.encoder = elements ∧
      ProviderAt content inputs elements (fun j => if j ∈ elements.map Prod.fst then k + 1 else 0) y.provider := by
  unfold Tool.iterate at h
  simp only [bind, except_ok] at h
  obtain ⟨time, h1, r, h2, h⟩ := h
  rw [← elements_ids, he] at h2
  obtain ⟨reads, m1, m2, m3, m4, m5⟩ := read_all hW k _ _ _ _ r hn (fun i hi => by rw [if_pos hi]) hp h2
  obtain ⟨u, hu⟩ : ∃ u, x.encoder.encode ⟨o.blocks (holdBlocks metadata time x.held), r.1⟩ = u := ⟨_, rfl⟩
  rw [hu] at h
  obtain ⟨ur, e1⟩ := u
  cases ur with
  | error e => cases h
  | ok un =>
    simp only at h
    have he1 : elementsOf e1 = elements := by rw [← he]; unfold elementsOf; rw [encode_elements hu]
    have hcall : x.encoder.call K linear (.encode ⟨o.blocks (holdBlocks metadata time x.held), r.1⟩) = .ok (.done, e1) := by
      simp only [IamfEncoder.call, hu]
    have hprov : ProviderAt content inputs elements (fun j => if j ∈ elements.map Prod.fst then k + 1 else 0) r.2.2 := by
      refine cast ?_ m5
      congr 1
      funext j
      split <;> rfl
    cases hlast : r.2.1 with
    | true =>
      rw [if_pos hlast] at h
      simp only [except_ok] at h
      obtain ⟨e2, h3, ⟨b, e3⟩, h4, h⟩ := h
      have h := (Except.ok.inj h).symm
      subst h
      refine ⟨⟨time, ⟨o.blocks (holdBlocks metadata time x.held), r.1⟩, true, o.rank⟩, [.done, .done, .unit b], h1, ?_, by simp, ⟨reads, m1, m2, m3, ?_⟩, rfl, ho _, rfl, ?_, hprov⟩
      · simp only [ToolTurn.calls, if_true, List.cons_append, List.nil_append, IamfEncoder.calls, bind, Except.bind, hcall]
        simp only [IamfEncoder.call, bind, Except.bind, h3, h4]
      · simp only
        rw [← m4, hlast]
      · rw [← he1]; unfold elementsOf; simp only; rw [output_elements h4, finalizeEncode_elements h3]
    | false =>
      rw [if_neg (by rw [hlast]; exact Bool.false_ne_true)] at h
      simp only [except_ok] at h
      obtain ⟨⟨b, e3⟩, h4, h⟩ := h
      have h := (Except.ok.inj h).symm
      subst h
      refine ⟨⟨time, ⟨o.blocks (holdBlocks metadata time x.held), r.1⟩, false, o.rank⟩, [.done, .unit b], h1, ?_, by simp, ⟨reads, m1, m2, m3, ?_⟩, rfl, ho _, rfl, ?_, hprov⟩
      · simp only [ToolTurn.calls, Bool.false_eq_true, if_false, List.nil_append, IamfEncoder.calls, bind, Except.bind, hcall]
        simp only [IamfEncoder.call, bind, Except.bind, h4]
      · simp only
        rw [← m4, hlast]
      · rw [← he1]; unfold elementsOf; simp only; rw [output_elements h4]

private theorem tool_loop {content : W.Source → List Int32} (hW : HonestWav W content) {inputs : List (WavInput W)} {metadata : List (BlockMetadata ObuHeader)}
    {orders : Nat → ToolOrder} (ho : ∀ k l, ((orders k).blocks l).Perm l) {elements : List (UInt32 × ElementWithData)} (hn : (elements.map Prod.fst).Nodup) :
    ∀ (fuel k : Nat) (x y : Tool L P σ W), elementsOf x.encoder = elements →
      ProviderAt content inputs elements (fun j => if j ∈ elements.map Prod.fst then k else 0) x.provider → Tool.loop K linear metadata orders k fuel x = .ok y →
      ∃ (turns : List ToolTurn) (answers : List IamfEncoderAnswer), x.encoder.calls K linear (callsOf turns) = .ok (answers, y.encoder) ∧ y.encoder.generating = false ∧
        (∀ a ∈ answers, ∀ e, a ≠ .rejected e) ∧ Holding metadata x.held turns ∧
        ∀ (j : Nat) t, turns[j]? = some t → SamplesOf content inputs elements (k + j) t ∧ t.rank = (orders (k + j)).rank ∧
          ∃ e as, x.encoder.calls K linear (callsOf (turns.take j)) = .ok (as, e) ∧ e.generating = true ∧ e.inputTimestamp = .ok t.time := by
  intro fuel
  induction fuel with
  | zero =>
    intro k x y he hp h
    rw [Tool.loop] at h
    split at h
    · cases h
    · rename_i hg
      rw [← Except.ok.inj h]
      exact ⟨[], [], rfl, Bool.eq_false_iff.mpr hg, by simp, trivial, fun j t h => by simp at h⟩
  | succ fuel ih =>
    intro k x y he hp h
    rw [Tool.loop] at h
    split at h
    · rename_i hg
      simp only [bind, except_ok] at h
      obtain ⟨x1, h1, h⟩ := h
      obtain ⟨t, as, g1, g2, g3, g4, g5, g6, g7, g8, g9⟩ := iterate_spec hW (ho k) he hn hp h1
      obtain ⟨turns, as', i1, i2, i3, i4, i5⟩ := ih (k + 1) x1 y g8 g9 h
      refine ⟨t :: turns, as ++ as', encoder_calls_of g2 i1, i2, ?_, ⟨g6, g7 ▸ i4⟩, ?_⟩
      · intro a ha
        rcases List.mem_append.mp ha with ha | ha
        · exact g3 a ha
        · exact i3 a ha
      · intro j t' ht'
        cases j with
        | zero =>
          rw [List.getElem?_cons_zero] at ht'
          obtain rfl := Option.some.inj ht'
          exact ⟨g4, g5, x.encoder, [], rfl, hg, g1⟩
        | succ j =>
          rw [List.getElem?_cons_succ] at ht'
          obtain ⟨j1, j2, e, as'', j3, j4⟩ := i5 j t' ht'
          rw [show k + 1 + j = k + (j + 1) by omega] at j1 j2
          exact ⟨j1, j2, e, as ++ as'', encoder_calls_of g2 j3, j4⟩
    · rename_i hg
      rw [← Except.ok.inj h]
      exact ⟨[], [], rfl, Bool.eq_false_iff.mpr hg, by simp, trivial, fun j t h => by simp at h⟩

/-- **C56.** What the program for encoding WAV files gives to the encoder, whatever the codec, and for any number of audio elements.  If the program is successful, it called the encoder in a number of iterations, in which no call failed,
until there were no more temporal units to come.  In the `k`-th iteration, the encoder was given the `k`-th frame of every audio element from its WAV file; the metadata of the
parameter blocks that start at the time that the encoder reports; and was told that these are the last samples if the WAV file of the last audio element had ended. -/
theorem C56_what_the_encoder_is_given (K : Sink σ) (linear : Int16 → Rat) (content : W.Source → List Int32) (hW : HonestWav W content) (inputs : List (WavInput W))
    (hpos : ∀ y ∈ inputs, ∀ f, y.file = some f → f.channels ≠ 0) (metadata : List (BlockMetadata ObuHeader)) (orders : Nat → ToolOrder)
    (ho : ∀ k l, ((orders k).blocks l).Perm l) (fuel : Nat) (e0 e : IamfEncoder L P σ) (hn : ((elementsOf e0).map Prod.fst).Nodup)
    (h : encodeWavs K linear inputs metadata orders fuel e0 = .ok e) :
    ∃ (turns : List ToolTurn) (answers : List IamfEncoderAnswer), e0.calls K linear (callsOf turns) = .ok (answers, e) ∧ e.generating = false ∧
      (∀ a ∈ answers, ∀ x, a ≠ .rejected x) ∧ BlocksOf metadata turns ∧
      ∀ (k : Nat) t, turns[k]? = some t → SamplesOf content inputs (elementsOf e0) k t ∧
        ∃ ek as, e0.calls K linear (callsOf (turns.take k)) = .ok (as, ek) ∧ ek.generating = true ∧ ek.inputTimestamp = .ok t.time := by
  unfold encodeWavs at h
  simp only [bind, except_ok] at h
  obtain ⟨p, h1, x, h2, h⟩ := h
  have hp := provider_created content hpos h1
  have hp' : ProviderAt content inputs (elementsOf e0) (fun j => if j ∈ (elementsOf e0).map Prod.fst then 0 else 0) p := by
    refine cast ?_ hp
    unfold elementsOf
    congr 1
    funext j
    split <;> rfl
  obtain ⟨turns, as, g1, g2, g3, g4, g5⟩ := tool_loop hW ho hn fuel 0 ⟨e0, p, []⟩ x rfl hp' h2
  rw [← Except.ok.inj h]
  refine ⟨turns, as, g1, g2, g3, blocks_of g4, fun k t ht => ?_⟩
  have := g5 k t ht
  rw [Nat.zero_add] at this
  exact ⟨this.1, this.2.2⟩

end Iamf.Props
