import Verif.Props.GeneratorMaybe
/-
  Lemmas for C44: what it takes to put frames out.
-/
namespace Iamf.Props
open Iamf

/-! ### Flushing -/

/-- What is to be trimmed fits in 32 bits, also after the samples that are left were padded. -/
def Space (W : World) (G : History) (x : UInt32 × ElementWithData) : Prop :=
  W.endTotal (W.spot x) (G.rounds x.1) + (if (W.spot x).left (G.rounds x.1) = 0 then 0 else (W.spot x).n.toNat) < 4294967296

/-- Rounds after `H` without samples, for as long as samples are left. -/
def Flushed (S : Spot) : List Round → List Round → Prop
  | _, [] => True
  | H, r :: F => r.ticks = 0 ∧ S.left H ≠ 0 ∧ Flushed S (H ++ [r]) F

theorem flushed_append (S : Spot) (H F F' : List Round) : Flushed S H (F ++ F') ↔ Flushed S H F ∧ Flushed S (H ++ F) F' := by
  induction F generalizing H with
  | nil => simp [Flushed]
  | cons r F ih => simp only [List.cons_append, Flushed, ih, List.append_assoc, List.nil_append]; exact ⟨fun h => ⟨⟨h.1, h.2.1, h.2.2.1⟩, h.2.2.2⟩, fun h => ⟨h.1.1, h.1.2.1, h.1.2.2, h.2⟩⟩

theorem endTotal_append (W : World) (S : Spot) (H : List Round) (r : Round) :
    W.endTotal S (H ++ [r]) ≤ W.endTotal S H + (S.n.toNat - (S.left H + r.ticks)) := by
  unfold World.endTotal
  rw [S.pads_append]
  split <;> omega

theorem space_round {W : World} {G : History} {x : UInt32 × ElementWithData} (h : Space W G x) {r : Round} (hr : r.ticks = 0)
    (hl : (W.spot x).left (G.rounds x.1) ≠ 0) : Space W (G.round x.1 r) x := by
  unfold Space at h ⊢
  have hrx : (G.round x.1 r).rounds x.1 = G.rounds x.1 ++ [r] := by
    show (if x.1 = x.1 then _ else _) = _
    rw [if_pos rfl]
  rw [hrx]
  have h1 := endTotal_append W (W.spot x) (G.rounds x.1) r
  have h2 := (W.spot x).left_append (G.rounds x.1) r
  rw [hr] at h1 h2
  rw [if_neg hl] at h
  split <;> omega

open FrameGenerator in
theorem flush_spec {L : EncoderLib} {C : EncoderSpec L} (F : Faithful L C) {W : World} (hW : Sane W) (es : List (UInt32 × ElementWithData)) :
    ∀ (g : FrameGenerator L.State) (G : History), (∀ x ∈ es, x ∈ W.elements) → (es.map Prod.fst).Nodup → Core C W g G → g.phase = .flushing →
    Incomplete W G → (∀ x ∈ es, Busy g x ((W.spot x).left (G.rounds x.1))) → (∀ x ∈ W.elements, Space W G x) →
    Reports (flushElements L W.linear es g) fun g' => ∃ G', Core C W g' G' ∧ g'.phase = .flushing ∧ Incomplete W G' ∧ (∀ x ∈ W.elements, Space W G' x) ∧
      (∀ x ∈ W.elements, ∃ R, G'.rounds x.1 = G.rounds x.1 ++ R ∧ Flushed (W.spot x) (G.rounds x.1) R) ∧ G'.sent = G.sent ∧ G'.out = G.out ∧
      G'.before = G.before ∧ ∀ i, (g'.encoders i).isSome = (g.encoders i).isSome := by
  induction es with
  | nil =>
    intro g G _ _ h hp hi _ hs
    exact ⟨G, h, hp, hi, hs, fun x _ => ⟨[], (List.append_nil _).symm, trivial⟩, rfl, rfl, rfl, fun _ => rfl⟩
  | cons x es ih =>
    intro g G hsub hnd h hp hinc hbusy hspace
    have hx := hsub x (by simp)
    rw [List.map_cons, List.nodup_cons] at hnd
    obtain ⟨ls, hls, hlsne⟩ := (hW.element x hx).listed
    have hfl : flushElements L W.linear (x :: es) g = (g.maybeEncode L W.linear x.1 x.2 ls).bind fun g => flushElements L W.linear es g := by
      obtain ⟨i, e⟩ := x
      rw [flushElements, h.labels, hls]
      rfl
    rw [hfl]
    refine Reports.bind (maybe_spec F hW h hx hls ?_) fun g' hg' => ?_
    · rintro ⟨y, hy, hd⟩
      have h1 := hspace x hx
      unfold Space at h1
      rw [if_neg (hbusy x (by simp) hp y hy hd)] at h1
      exact h1
    · obtain ⟨hp', hes, hcase⟩ := hg'
      rcases hcase with ⟨rfl, -⟩ | ⟨hcore, hdata, -, -⟩ | ⟨r, hcore, hr, hall, hdata, -⟩
      · exact ih g' G (fun x hx => hsub x (by simp [hx])) hnd.2 h hp hinc (fun x hx => hbusy x (by simp [hx])) hspace
      · have := ih g' G (fun x hx => hsub x (by simp [hx])) hnd.2 hcore (hp'.trans hp) hinc (fun x hx _ => by
          rw [hdata]
          exact hbusy x (by simp [hx]) hp) hspace
        generalize flushElements L W.linear es g' = res at this ⊢
        cases res with
        | error e => exact this
        | ok g2 =>
          obtain ⟨G', k1, k2, k3, k4, k5, k6, k7, k8, k9⟩ := this
          exact ⟨G', k1, k2, k3, k4, k5, k6, k7, k8, fun i => (k9 i).trans (hes i)⟩
      · have hticks : r.ticks = 0 := hinc x hx ls hls r.ticks hr.ticks
        obtain ⟨y, hy⟩ := List.exists_mem_of_ne_nil _ (hW.element x hx).some_substream
        have hleft := hbusy x (by simp) hp y hy (hall y hy)
        have hrx : (G.round x.1 r).rounds x.1 = G.rounds x.1 ++ [r] := by
          show (if x.1 = x.1 then _ else _) = _
          rw [if_pos rfl]
        have hr' : ∀ x' ∈ W.elements, x' ≠ x → (G.round x.1 r).rounds x'.1 = G.rounds x'.1 := by
          intro x' hx' hne
          show (if x'.1 = x.1 then _ else _) = _
          rw [if_neg fun hc => hne (hW.same_id hx hx' hc)]
        have hin : Incomplete W (G.round x.1 r) := by
          intro x' hx' ls' hl' k hk
          by_cases hne : x' = x
          · subst hne
            obtain ⟨ls2, hls2, hne2⟩ := (hW.element x' hx').listed
            rw [hl', Option.some.injEq] at hls2
            subst hls2
            obtain ⟨l, hl⟩ := List.exists_mem_of_ne_nil _ hne2
            have := hk l hl
            simp only [History.round, if_true] at this
            exact this.symm
          · have he : ¬ x'.1 = x.1 := fun hc => hne (hW.same_id hx hx' hc)
            simp only [History.round, if_neg he] at hk
            exact hinc x' hx' ls' hl' k hk
        have := ih g' (G.round x.1 r) (fun x hx => hsub x (by simp [hx])) hnd.2 hcore (hp'.trans hp) hin ?_ ?_
        · generalize flushElements L W.linear es g' = res at this ⊢
          cases res with
          | error e => exact this
          | ok g2 =>
            obtain ⟨G', k1, k2, k3, k4, k5, k6, k7, k8, k9⟩ := this
            refine ⟨G', k1, k2, k3, k4, fun x' hx' => ?_, k6, k7, k8, fun i => (k9 i).trans (hes i)⟩
            obtain ⟨R, hR, hF⟩ := k5 x' hx'
            by_cases hne : x' = x
            · subst hne
              rw [hrx] at hR hF
              exact ⟨r :: R, by rw [hR, List.append_assoc, List.singleton_append], hticks, hleft, hF⟩
            · rw [hr' x' hx' hne] at hR hF
              exact ⟨R, hR, hF⟩
        · intro x' hx' _ y' hy' hd'
          have hne : x' ≠ x := by
            rintro rfl
            exact hnd.1 (List.mem_map_of_mem hx')
          have hxx := hsub x' (by simp [hx'])
          rw [hr' x' hxx hne]
          rw [hdata y'.1 fun hc => hne (hW.same_element hxx hx (List.mem_map_of_mem hy') hc)] at hd'
          exact hbusy x' (by simp [hx']) hp y' hy' hd'
        · intro x' hx'
          by_cases hne : x' = x
          · subst hne; exact space_round (hspace x' hx') hticks hleft
          · unfold Space
            rw [hr' x' hx' hne]
            exact hspace x' hx'

/-! ### The end of the encoders -/

private theorem order_element {W : World} (hW : Sane W) {i : UInt32} (hi : i ∈ W.order) :
    ∃ x ∈ W.elements, ∃ y ∈ x.2.data.labels, y.1 = i := by
  obtain ⟨x, hx, hi⟩ := List.mem_flatMap.mp ((hW.order.2 i).mp hi)
  obtain ⟨y, hy, rfl⟩ := List.mem_map.mp hi
  exact ⟨x, hx, y, hy, rfl⟩

private theorem eq_sub {W : World} (hW : Sane W) {x x' : UInt32 × ElementWithData} (hx : x ∈ W.elements) (hx' : x' ∈ W.elements)
    {y y' : UInt32 × List Label} (hy : y ∈ x.2.data.labels) (hy' : y' ∈ x'.2.data.labels) (h : y'.1 = y.1) : x' = x ∧ y' = y := by
  have he : x' = x := hW.same_element hx' hx (List.mem_map_of_mem hy') (h ▸ List.mem_map_of_mem hy)
  subst he
  exact ⟨rfl, eq_of_nodup_map (f := Prod.fst) (hW.substreams_nodup hx) hy' hy h⟩

open FrameGenerator in
theorem finalizeEncoders_spec {L : EncoderLib} {C : EncoderSpec L} (F : Faithful L C) {W : World} (hW : Sane W) {G : History} (ids : List UInt32) :
    ∀ (g : FrameGenerator L.State), (∀ i ∈ ids, i ∈ W.order) → Core C W g G → g.phase = .flushing →
    Reports (finalizeEncoders L ids g) fun g' => Core C W g' G ∧ g'.phase = .flushing ∧ (∀ i, (g'.data i).isSome → (g.data i).isSome) ∧
      (∀ i, (g'.encoders i).isSome = (g.encoders i).isSome) ∧
      ∀ x ∈ W.elements, ∀ y ∈ x.2.data.labels, y.1 ∈ ids → (g'.data y.1).isSome → (W.spot x).left (G.rounds x.1) ≠ 0 := by
  induction ids with
  | nil => intro g _ h hp; exact ⟨h, hp, fun _ => _root_.id, fun _ => rfl, fun _ _ _ _ hc => by cases hc⟩
  | cons i ids ih =>
    intro g hsub h hp
    obtain ⟨x, hx, y, hy, rfl⟩ := order_element hW (hsub i (by simp))
    -- when the encoder stays
    have skip : ((g.data y.1).isSome → (W.spot x).left (G.rounds x.1) ≠ 0) →
        Reports (finalizeEncoders L ids g) fun g' => Core C W g' G ∧ g'.phase = .flushing ∧ (∀ i, (g'.data i).isSome → (g.data i).isSome) ∧
          (∀ i, (g'.encoders i).isSome = (g.encoders i).isSome) ∧
          ∀ x ∈ W.elements, ∀ y' ∈ x.2.data.labels, y'.1 ∈ y.1 :: ids → (g'.data y'.1).isSome → (W.spot x).left (G.rounds x.1) ≠ 0 := by
      intro hd
      have := ih g (fun i hi => hsub i (by simp [hi])) h hp
      generalize finalizeEncoders L ids g = res at this ⊢
      cases res with
      | error e => exact this
      | ok g' =>
        obtain ⟨k1, k2, k3, k5, k4⟩ := this
        refine ⟨k1, k2, k3, k5, fun x' hx' y' hy' hm hs => ?_⟩
        rcases List.mem_cons.mp hm with he | hm
        · obtain ⟨rfl, rfl⟩ := eq_sub hW hx hx' hy hy' he
          exact hd (k3 _ hs)
        · exact k4 x' hx' y' hy' hm hs
    unfold finalizeEncoders
    cases he : g.encoders y.1 with
    | none =>
      refine skip fun hd => ?_
      obtain ⟨z, hz, -⟩ := ((h.stage x hx y hy).of_data hd).enc
      rw [he] at hz; cases hz
    | some e =>
      cases hd : g.data y.1 with
      | none => exact skip fun hd' => by rw [hd] at hd'; cases hd'
      | some d =>
        simp only
        have hopen := (h.stage x hx y hy).of_data (by rw [hd]; rfl)
        obtain ⟨d', hd', hcell⟩ := hopen.data
        rw [hd, Option.some.injEq] at hd'
        subst hd'
        have hempty : d.obu.empty = decide ((W.spot x).left (G.rounds x.1) = 0) :=
          cell_empty hcell ((hW.element x hx).some_label y hy) fun l hl =>
            obuQueue_length (W.spot x) (h.even x hx) (List.mem_flatMap.mpr ⟨y, hy, hl⟩)
        by_cases hl : (W.spot x).left (G.rounds x.1) = 0
        case neg =>
          rw [hempty, if_neg (by simp [hl])]
          exact skip fun _ => hl
        rw [hempty, if_pos (by simp [hl])]
        obtain ⟨e', he', hfin, in1, w, hins, hhold, hans⟩ := hopen.enc
        rw [he, Option.some.injEq] at he'
        subst he'
        refine Reports.bind (F.finalize y.1 e w hhold hfin) ?_
        rintro e2 ⟨hfin2, out, hdone, hout⟩
        have hans2 : List.Forall₂ C.Answers ((W.spot x).framesFrom y.1 y.2 [] (G.rounds x.1)) (G.sent y.1 ++ e2.done) := by
          rw [hins, hdone, ← List.append_assoc]
          exact List.rel_append hans hout
        have hlen := hans2.length_eq
        rw [Spot.framesFrom_length, List.length_append] at hlen
        have hcore : Core C W ⟨g.labels, g.elements, g.order, g.encoders.set y.1 e2, g.samples, g.data.erase y.1, g.trimming, g.downMixing, g.parameters,
            g.timing, g.phase, g.delay⟩ G := by
          refine ⟨h.labels, h.elements, h.order, h.downMixing, h.safe, h.filed, h.mixes, h.even, fun x' hx' y' hy' => ?_, h.waits, h.before, fun x' hx' y' hy' => ?_,
            fun x' hx' y' hy' => ?_, h.fits⟩
          · by_cases hne : y'.1 = y.1
            · obtain ⟨rfl, rfl⟩ := eq_sub hW hx hx' hy hy' hne
              exact .closed e2 (if_pos rfl) hl hp (if_pos rfl) hfin2 hans2 fun _ => hopen.trim
            · exact (h.stage x' hx' y' hy').transport (if_neg hne) (if_neg hne) rfl rfl _root_.id
          · by_cases hne : y'.1 = y.1
            · obtain ⟨rfl, rfl⟩ := eq_sub hW hx hx' hy hy' hne
              simp only [IdMap.set, if_true, isOver, Encoder.isFinished, hfin2, Bool.true_and, List.isEmpty_eq_false_iff]
              intro hne
              have := List.length_pos_iff.mpr hne
              right; left; omega
            · simp only [IdMap.set, if_neg hne]
              exact h.late x' hx' y' hy'
          · by_cases hne : y'.1 = y.1
            · obtain ⟨rfl, rfl⟩ := eq_sub hW hx hx' hy hy' hne
              simp only [IdMap.set, if_true]
              refine (h.out x' hx' y' hy').trans ?_
              have ho : isOver (g.encoders y'.1) = false := isOver_open hopen
              unfold World.outputs
              refine List.mapIdx_eq_mapIdx_iff.mpr fun j hj => ?_
              have hflag : isLastFrame (g.encoders y'.1) (G.before y'.1) (G.rounds x'.1).length j = isLastFrame (some e2) (G.before y'.1) (G.rounds x'.1).length j := by
                unfold isLastFrame
                rw [ho]
                simp only [isOver, Encoder.isFinished, hfin2, Bool.true_and, Bool.false_and]
                symm
                rw [Bool.and_assoc, Bool.and_eq_false_iff]
                cases hdn : e2.done with
                | cons a b => left; rfl
                | nil =>
                  right
                  rw [hdn, List.length_nil] at hlen
                  have hlt := h.late x' hx' y' hy' ho
                  rw [Bool.and_eq_false_iff, decide_eq_false_iff_not, decide_eq_false_iff_not]
                  rcases hlt with hlt | hlt | hlt
                  · by_cases hb : G.before y'.1 ≤ j
                    · right; omega
                    · exact .inl hb
                  · omega
                  · exact absurd hl hlt
              rw [hflag]
            · simp only [IdMap.set, if_neg hne]
              exact h.out x' hx' y' hy'
        have := ih _ (fun i hi => hsub i (by simp [hi])) hcore hp
        generalize finalizeEncoders L ids _ = res at this ⊢
        cases res with
        | error e => exact this
        | ok g' =>
          obtain ⟨k1, k2, k3, k5, k4⟩ := this
          refine ⟨k1, k2, fun j hj => ?_, fun j => (k5 j).trans ?_, fun x' hx' y' hy' hm hs => ?_⟩
          · have := k3 j hj
            simp only [IdMap.erase] at this
            split at this
            · cases this
            · exact this
          · simp only [IdMap.set]
            split
            next hj => rw [hj, he]; rfl
            · rfl
          · rcases List.mem_cons.mp hm with he | hm
            · have := k3 _ hs
              simp only [IdMap.erase, if_pos he] at this
              cases this
            · exact k4 x' hx' y' hy' hm hs

end Iamf.Props
