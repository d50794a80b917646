import Verif.Props.GeneratorState
import Verif.Props.TemporalUnit
/-
  Lemmas for C44: what an audio element does with samples that are ready, and when it flushes.
-/
namespace Iamf.Props
open Iamf

/-! ### Substreams belong to one audio element -/

private theorem flatMap_unique {α β : Type} {f : α → List β} {l : List α} (h : (l.flatMap f).Nodup) {x x' : α} (hx : x ∈ l) (hx' : x' ∈ l) {a : β}
    (ha : a ∈ f x) (ha' : a ∈ f x') : x = x' := by
  induction l with
  | nil => cases hx
  | cons z l ih =>
    rw [List.flatMap_cons, List.nodup_append] at h
    rcases List.mem_cons.mp hx with e | hx1 <;> rcases List.mem_cons.mp hx' with e' | hx1'
    · rw [e, e']
    · subst e; exact absurd rfl (h.2.2 a ha a (List.mem_flatMap.mpr ⟨x', hx1', ha'⟩))
    · subst e'; exact absurd rfl (h.2.2 a ha' a (List.mem_flatMap.mpr ⟨x, hx1, ha⟩))
    · exact ih h.2.1 hx1 hx1'

private theorem flatMap_part {α β : Type} {f : α → List β} {l : List α} (h : (l.flatMap f).Nodup) {x : α} (hx : x ∈ l) : (f x).Nodup := by
  induction l with
  | nil => cases hx
  | cons z l ih =>
    rw [List.flatMap_cons, List.nodup_append] at h
    rcases List.mem_cons.mp hx with rfl | hx
    · exact h.1
    · exact ih h.2.1 hx

theorem Sane.same_element {W : World} (hW : Sane W) {x x' : UInt32 × ElementWithData} (hx : x ∈ W.elements) (hx' : x' ∈ W.elements) {i : UInt32}
    (hi : i ∈ x.2.data.labels.map Prod.fst) (hi' : i ∈ x'.2.data.labels.map Prod.fst) : x = x' :=
  flatMap_unique (f := fun x : UInt32 × ElementWithData => x.2.data.labels.map Prod.fst) hW.ids hx hx' hi hi'

theorem Sane.substreams_nodup {W : World} (hW : Sane W) {x : UInt32 × ElementWithData} (hx : x ∈ W.elements) : (x.2.data.labels.map Prod.fst).Nodup :=
  flatMap_part (f := fun x : UInt32 × ElementWithData => x.2.data.labels.map Prod.fst) hW.ids hx

theorem Sane.same_id {W : World} (hW : Sane W) {x x' : UInt32 × ElementWithData} (hx : x ∈ W.elements) (hx' : x' ∈ W.elements) (h : x'.1 = x.1) : x' = x :=
  eq_of_nodup_map (f := Prod.fst) hW.keys hx' hx h

theorem Sane.in_order {W : World} (hW : Sane W) {x : UInt32 × ElementWithData} (hx : x ∈ W.elements) {y : UInt32 × List Label} (hy : y ∈ x.2.data.labels) :
    y.1 ∈ W.order :=
  (hW.order.2 y.1).mpr (List.mem_flatMap.mpr ⟨x, hx, List.mem_map_of_mem hy⟩)

/-! ### One audio element -/

/-- A round was added. -/
def History.round (G : History) (id : UInt32) (r : Round) : History :=
  ⟨fun i => if i = id then G.rounds i ++ [r] else G.rounds i, G.sent, G.out, fun i => if i = id then fun _ => [] else G.pending i, G.before⟩

/-- The round that the samples of an audio element become: as many samples, down-mixed. -/
structure RoundOf (W : World) (x : UInt32 × ElementWithData) (ls : List Label) (p : Label → Samples) (r : Round) : Prop where
  ticks : ∀ l ∈ ls, (p l).length = r.ticks
  mixed : ∃ cfg m', W.downMixing x.1 = some cfg ∧
    runDownMixers r.mixing.factors cfg.mixers (fun l => if l ∈ ls then some (p l) else none) = .ok m' ∧
    ∀ y ∈ x.2.data.labels, ∀ l ∈ y.2, m' l = some (r.block l)

theorem isOver_open {L : EncoderLib} {C : EncoderSpec L} {S : Spot} {g : FrameGenerator L.State} {H : List Round} {s : UInt32} {ls : List Label}
    {sent : List (GenFrame × List UInt8)} {t : TrimmingState} (h : OpenAfter C S g H s ls sent t) : isOver (g.encoders s) = false := by
  obtain ⟨x, hx, hf, -⟩ := h.enc
  rw [hx]
  simp [isOver, Encoder.isFinished, hf]

theorem outputs_not_over {σ : Type} (W : World) (S : Spot) (H H' : List Round) (e e' : Option (Encoder σ)) (before before' : Nat)
    (sent : List (GenFrame × List UInt8)) (he : isOver e = false) (he' : isOver e' = false) :
    W.outputs S H e before sent = W.outputs S H' e' before' sent := by
  unfold World.outputs isLastFrame
  rw [he, he']
  rfl

theorem Stage.of_data {L : EncoderLib} {C : EncoderSpec L} {W : World} {g : FrameGenerator L.State} {S : Spot} {H : List Round}
    {sent : List (GenFrame × List UInt8)} {s : UInt32} {ls : List Label} (h : Stage C W g S H sent s ls) (hd : (g.data s).isSome) :
    OpenAfter C S g H s ls sent (W.trim S H sent.length) := by
  cases h with
  | opened h => exact h
  | closed x a => rw [a] at hd; cases hd
  | gone a => rw [a] at hd; cases hd

theorem Stage.sent_le {L : EncoderLib} {C : EncoderSpec L} {W : World} {g : FrameGenerator L.State} {S : Spot} {H : List Round}
    {sent : List (GenFrame × List UInt8)} {s : UInt32} {ls : List Label} (h : Stage C W g S H sent s ls) : sent.length ≤ H.length := by
  have key : ∀ (a b : List (List (List Int32) × GenFrame)) (c d : List (GenFrame × List UInt8)), S.framesFrom s ls [] H = a ++ b →
      List.Forall₂ C.Answers a (c ++ d) → c.length ≤ H.length := by
    intro a b c d h1 h2
    have e1 := congrArg List.length h1
    have e2 := h2.length_eq
    rw [S.framesFrom_length, List.length_append] at e1
    rw [List.length_append] at e2
    omega
  cases h with
  | opened h =>
    obtain ⟨x, -, -, in1, w, h1, -, h2⟩ := h.enc
    exact key in1 w sent x.done h1 h2
  | closed x a b c d e f => exact key _ [] sent x.done (List.append_nil _).symm f
  | gone a b c d e => exact key _ [] sent [] (List.append_nil _).symm (by rw [List.append_nil]; exact e)

theorem trim_after (W : World) (S : Spot) (H : List Round) (r : Round) (k : Nat) :
    TrimmingState.after (W.trim S H k) (S.n.toNat - (S.left H + r.ticks)) = W.trim S (H ++ [r]) k := by
  unfold TrimmingState.after World.trim World.endTotal
  rw [S.pads_append]
  cases W.addPadding with
  | false => rfl
  | true => simp only [if_true]; congr 1; omega

/-- No other audio element has demixing parameters with the same id. -/
def OwnBlocks (W : World) (x : UInt32 × ElementWithData) : Prop := ∀ x' ∈ W.elements, x' ≠ x → ∀ b d b' d', demixingDefinition x.2.obu = some (b, d) →
  demixingDefinition x'.2.obu = some (b', d') → b'.id ≠ b.id

open FrameGenerator in
theorem maybe_spec {L : EncoderLib} {C : EncoderSpec L} (F : Faithful L C) {W : World} (hW : Sane W) {g : FrameGenerator L.State} {G : History}
    (h : Core C W g G) {x : UInt32 × ElementWithData} (hx : x ∈ W.elements) {ls : List Label} (hls : W.labels x.1 = some ls)
    (room : (∃ y ∈ x.2.data.labels, (g.data y.1).isSome) →
      W.endTotal (W.spot x) (G.rounds x.1) + (W.spot x).n.toNat < 4294967296) :
    Reports (g.maybeEncode L W.linear x.1 x.2 ls) fun g' => g'.phase = g.phase ∧ (∀ i, (g'.encoders i).isSome = (g.encoders i).isSome) ∧
      ((g' = g ∧ ¬ ∃ k, ∀ l ∈ ls, ∃ s, ((g.samples x.1).getD []).lookup l = some s ∧ s.length = k) ∨
        (Core C W g' G ∧ g'.data = g.data ∧ g'.parameters = g.parameters ∧ ∀ l ∈ ls, (G.pending x.1 l).length = 0) ∨
        ∃ r, Core C W g' (G.round x.1 r) ∧ RoundOf W x ls (G.pending x.1) r ∧ (∀ y ∈ x.2.data.labels, (g.data y.1).isSome) ∧
          (∀ i, i ∉ x.2.data.labels.map Prod.fst → g'.data i = g.data i) ∧ r.demixing = waitingBlock g.parameters x.1 ∧
          waitingBlock g'.parameters x.1 = none ∧
          ∀ x' ∈ W.elements, x' ≠ x → OwnBlocks W x' → waitingBlock g'.parameters x'.1 = waitingBlock g.parameters x'.1) := by
  obtain ⟨⟨c, hc⟩, hsize, hsubs, hlabels, ⟨ls', hls', hlsne⟩, ⟨cfg, hcfg, hcsub, hcmix⟩, hstart⟩ := hW.element x hx
  rw [hls, Option.some.injEq] at hls'
  subst hls'
  have hwait := h.waits x hx ls hls
  unfold maybeEncode
  dsimp only
  by_cases hready : samplesReady ((g.samples x.1).getD []) ls = true
  case neg =>
    rw [if_pos (by simpa using hready)]
    refine ⟨rfl, fun _ => rfl, .inl ⟨rfl, fun hk => ?_⟩⟩
    exact hready ((samplesReady_iff _ hlsne).mpr hk)
  rw [if_neg (by simp [hready]), hc]
  simp only
  split
  · rfl
  have hn : c.config.numSamplesPerFrame = (W.spot x).n := by simp [World.spot, frameSizeOf, hc]
  rw [hn]
  obtain ⟨k, hk⟩ := (samplesReady_iff _ hlsne).mp hready
  obtain ⟨hm, hmap, hlen⟩ := ready_map hwait hk
  obtain ⟨m, hmdef⟩ : ∃ m, m = (g.samples x.1).getD [] := ⟨_, rfl⟩
  rw [← hmdef] at hm hmap hwait hk hready ⊢
  have hmne : m ≠ [] := by
    rintro rfl
    cases ls with
    | nil => exact hlsne rfl
    | cons l ls => obtain ⟨s, hs, -⟩ := hk l (by simp); cases hs
  have hempty : (m.all fun x => x.2.isEmpty) = true ↔ k = 0 := by
    rw [List.all_eq_true]
    constructor
    · intro h
      cases m with
      | nil => exact absurd rfl hmne
      | cons x m =>
        have := h x (by simp)
        rw [List.isEmpty_iff] at this
        rw [← hm x (by simp), this]; rfl
    · rintro rfl x hx
      rw [List.isEmpty_iff]
      exact List.length_eq_zero_iff.mp (hm x hx)
  by_cases hgo : k = 0 ∧ g.noSamplesLeft = true
  · -- nothing to do
    have hloop : encodeLoop L W.linear x.1 (W.spot x).n x.2.data.labels (m.map fun x => (x.1, ([] : Samples))) 16 m noMixing g = .ok (none, g) := by
      unfold encodeLoop nextFrameData
      dsimp only
      rw [if_pos ⟨hempty.mpr hgo.1, hgo.2⟩]
      simp only [bind, Except.bind]
      rw [encode_nothing]
      · rfl
      · intro y hy d hd
        have h1 := hgo.2
        unfold noSamplesLeft at h1
        rw [List.all_eq_true] at h1
        have := h1 y.1 (h.order ▸ hW.in_order hx hy)
        rw [hd] at this
        exact this
    rw [hloop]
    show _ ∧ _
    refine ⟨rfl, fun _ => rfl, .inr (.inl ⟨?_, rfl, rfl, fun l hl => (hlen l hl).trans hgo.1⟩)⟩
    refine ⟨h.labels, h.elements, h.order, h.downMixing, h.safe, h.filed, h.mixes, h.even, fun x' hx' y hy => ?_, fun x' hx' ls' hl' => ?_, h.before, h.late, h.out, h.fits⟩
    · exact (h.stage x' hx' y hy).transport rfl rfl rfl rfl _root_.id
    · by_cases he : x'.1 = x.1
      · have := hW.same_id hx hx' he
        subst this
        rw [hls, Option.some.injEq] at hl'
        subst hl'
        simp only [IdMap.set, if_true, Option.getD_some]
        refine ⟨(waits_empties hwait).keys, (waits_empties hwait).known, fun l hl => ?_⟩
        rw [lookup_empties]
        exact (List.length_eq_zero_iff.mp ((hlen l hl).trans hgo.1)).symm
      · simp only [IdMap.set, if_neg he]
        exact h.waits x' hx' ls' hl'
  · -- a round
    have hEven := h.even x hx
    refine Reports.bind (loop_spec F (W.spot x) (by exact hsize) (by have h1 := hW.delay; have h2 := hW.startTotal; show W.delay < _; omega)
      (by exact hstart) (subs := x.2.data.labels) hsubs
      (hW.substreams_nodup hx) hlabels hEven (sent := G.sent) (t := fun s => W.trim (W.spot x) (G.rounds x.1) (G.sent s).length) (g := g) (cfg := cfg)
      (by rw [h.downMixing]; exact hcfg) hcsub (by show cfg.gains = W.gains x.1; unfold World.gains; rw [hcfg]) hcmix hm hmne h.safe
      (fun y hy => h.order ▸ hW.in_order hx hy) hgo ?_ ?_) ?_
    · intro y hy hd
      have := room ⟨y, hy, hd⟩
      refine ⟨by simp only [World.trim]; omega, fun _ => ?_⟩
      simp only [World.trim]
      omega
    · intro y hy d hd
      exact (h.stage x hx y hy).of_data (by rw [hd]; rfl)
    · rintro ⟨st, g1⟩ ⟨e1, e2, e3, e4, ep, r, ep1, ep2, e5, e6, ⟨m', e7, e8⟩, e9⟩
      simp only at e1 e2 e3 e4 e9 ep ⊢
      subst e1
      simp only
      obtain ⟨⟨a, pm⟩, hpm⟩ : ∃ z, z = g1.parameters.updateDemixing x.1 (((G.rounds x.1).length * (W.spot x).n.toNat : Nat) + ((W.spot x).n.toNat : Nat)) := ⟨_, rfl⟩
      have hsafe := updateDemixing_safe e3 x.1 (((G.rounds x.1).length * (W.spot x).n.toNat : Nat) + ((W.spot x).n.toNat : Nat))
      rw [← hpm] at hsafe ⊢
      cases a with
      | error err => exact hsafe.1 err rfl
      | ok u =>
        have hr : ∀ x' ∈ W.elements, x' ≠ x → (G.round x.1 r).rounds x'.1 = G.rounds x'.1 := by
          intro x' hx' hne
          show (if x'.1 = x.1 then _ else _) = _
          rw [if_neg fun hc => hne (hW.same_id hx hx' hc)]
        have hrx : (G.round x.1 r).rounds x.1 = G.rounds x.1 ++ [r] := by
          show (if x.1 = x.1 then _ else _) = _
          rw [if_pos rfl]
        have hopen : ∀ y ∈ x.2.data.labels, OpenAfter C (W.spot x) g (G.rounds x.1) y.1 y.2 (G.sent y.1)
            (W.trim (W.spot x) (G.rounds x.1) (G.sent y.1).length) := fun y hy => (h.stage x hx y hy).of_data (e4 y hy)
        have hother : ∀ x' ∈ W.elements, x' ≠ x → ∀ y ∈ x'.2.data.labels, y.1 ∉ x.2.data.labels.map Prod.fst := by
          intro x' hx' hne y hy hc
          exact hne (hW.same_element hx' hx (List.mem_map_of_mem hy) hc)
        have hsome : ∀ i, (g1.encoders i).isSome = (g.encoders i).isSome := by
          intro i
          by_cases hi : i ∈ x.2.data.labels.map Prod.fst
          · obtain ⟨y, hy, rfl⟩ := List.mem_map.mp hi
            obtain ⟨a, ha, -⟩ := (hopen y hy).enc
            obtain ⟨b, hb, -⟩ := (e9 y hy).enc
            rw [ha, hb]; rfl
          · rw [e2.encoders i hi]
        have hmixes := h.mixes x hx
        have hrm := round_mixing (n := (W.spot x).n.toNat) (p := r.mixing) (pm' := pm) hmixes.1 h.filed hmixes.2.1 (by rw [List.length_map, List.length_map]) ep1 (by
          rw [List.length_map]
          rw [show (((((G.rounds x.1).length + 1) * (W.spot x).n.toNat : Nat)) : Int) = (((G.rounds x.1).length * (W.spot x).n.toNat : Nat) : Int) +
            ((W.spot x).n.toNat : Nat) by rw [Nat.add_mul, Nat.one_mul]; exact Int.natCast_add _ _]
          rw [show ((W.spot x).element) = x.1 from rfl] at ep
          rw [← ep]
          exact hpm.symm)
        obtain ⟨q1, q2, q3, q4, q5, q6⟩ := hrm
        rw [show ((W.spot x).element) = x.1 from rfl] at ep2
        rw [← ep2] at q1 q3 q4
        refine ⟨e2.phase, hsome, .inr (.inr ⟨r, ?_, ⟨fun l hl => (hlen l hl).trans e5.symm, cfg, m', hcfg, by rw [← hmap]; exact e7, e8⟩, e4, e2.data, ep2, q5,
          fun x' hx' hne hown => ?_⟩)⟩
        rotate_left
        · obtain ⟨q7, q8⟩ := q6 x'.1 fun hc => hne (hW.same_id hx hx' hc)
          unfold waitingBlock
          rw [q7]
          cases hst : g.parameters.demix x'.1 with
          | none => rfl
          | some st =>
            simp only
            rw [q8 st (q7.trans hst)]
            intro b d hbd
            obtain ⟨b', d', hb', hid'⟩ := (h.mixes x' hx').1.id_of hst
            rw [hid']
            exact fun hc => hown x hx (fun he => hne he.symm) b' d' b d hb' hbd hc.symm
        refine ⟨e2.labels.trans h.labels, e2.elements.trans h.elements, e2.order.trans h.order, e2.downMixing.trans h.downMixing, hsafe.2, q2, ?_, ?_, ?_, ?_,
          ?_, ?_, ?_, h.fits⟩
        · intro x' hx'
          by_cases hne : x' = x
          · subst hne
            rw [hrx, List.map_append, List.map_append]
            refine ⟨q1, q3, fun r' hr' b hb => ?_⟩
            rcases List.mem_append.mp hr' with hr' | hr'
            · exact hmixes.2.2 r' hr' b hb
            · rw [List.mem_singleton] at hr'
              subst hr'
              exact q4 b hb
          · rw [hr x' hx' hne]
            obtain ⟨p1, p2, p3⟩ := h.mixes x' hx'
            exact ⟨p1.congr (q6 x'.1 fun hc => hne (hW.same_id hx hx' hc)).1, p2, p3⟩
        · intro x' hx'
          by_cases hne : x' = x
          · subst hne
            rw [hrx]
            intro r' hr' l hl
            rcases List.mem_append.mp hr' with hr' | hr'
            · exact hEven r' hr' l hl
            · rw [List.mem_singleton] at hr'
              obtain ⟨y, hy, hl⟩ := List.mem_flatMap.mp hl
              rw [hr', e6 y hy l hl, e5]
          · rw [hr x' hx' hne]; exact h.even x' hx'
        · intro x' hx' y hy
          by_cases hne : x' = x
          · subst hne
            rw [hrx]
            have := e9 y hy
            rw [← e5, trim_after] at this
            exact Stage.transport (.opened this) rfl rfl rfl rfl _root_.id
          · rw [hr x' hx' hne]
            exact ((h.stage x' hx' y hy).outside e2 (hother x' hx' hne y hy)).transport rfl rfl rfl rfl _root_.id
        · intro x' hx' ls' hl'
          by_cases hne : x' = x
          · subst hne
            rw [hls, Option.some.injEq] at hl'
            subst hl'
            simp only [IdMap.set, if_true, Option.getD_some, History.round]
            exact waits_empties hwait
          · have he : ¬ x'.1 = x.1 := fun hc => hne (hW.same_id hx hx' hc)
            simp only [IdMap.set, if_neg he, History.round, e2.samples]
            exact h.waits x' hx' ls' hl'
        · intro i
          refine ⟨(h.before i).1, fun hp => (h.before i).2 ?_⟩
          rw [← e2.phase]; exact hp
        · intro x' hx' y hy ho
          by_cases hne : x' = x
          · subst hne
            have := (h.stage x' hx' y hy).sent_le
            right; left
            rw [hrx, List.length_append, List.length_singleton]
            show (G.sent y.1).length < _
            omega
          · rw [hr x' hx' hne]
            have he : g1.encoders y.1 = g.encoders y.1 := e2.encoders y.1 (hother x' hx' hne y hy)
            exact h.late x' hx' y hy (by rw [← he]; exact ho)
        · intro x' hx' y hy
          by_cases hne : x' = x
          · subst hne
            rw [hrx]
            refine (h.out x' hx' y hy).trans ?_
            exact outputs_not_over W _ _ _ _ _ _ _ _ (isOver_open (hopen y hy))
              (show isOver (g1.encoders y.1) = false from isOver_open (e9 y hy))
          · rw [hr x' hx' hne]
            refine (h.out x' hx' y hy).trans ?_
            have he : g1.encoders y.1 = g.encoders y.1 := e2.encoders y.1 (hother x' hx' hne y hy)
            show _ = W.outputs _ _ (g1.encoders y.1) _ _
            rw [he]; rfl

end Iamf.Props
