import Verif.Cli.DecoderTrace
import Verif.Cli.ProcessorWhole
/-
  A decoder that was created from descriptors and gets whole temporal units.
-/
namespace Iamf

open Props (parse_ends)
variable {B : Backend}

/-- A decoder in whose buffer is what is left of the units `W`; the units `Qs` are still to come, and the samples `xs` to be rendered,
one for each of these units. -/
structure Whole (d : Decoder B) (p : Processor B) (W Qs : List Bits) (xs : List Rendered) : Prop where
  processor : d.processor = some p
  fit : d.buffer.Fit
  good : p.state.Good
  mode : d.fromDescriptors = true
  tight : 8 * d.buffer.src.length < d.buffer.abs.rest.length + 8
  rest : ∃ outs rs, Rest p.context p.state d.buffer.abs.rest W Qs outs ∧ renderAll p.renderer outs = some (xs, rs)

private theorem renderAll_length {rs rs' : B.State} {us : List OutputUnit} {xs : List Rendered} (h : renderAll rs us = some (xs, rs')) :
    xs.length = us.length := by
  induction us generalizing rs xs with
  | nil =>
    simp only [renderAll, Option.some.injEq, Prod.mk.injEq] at h
    rw [← h.1]; rfl
  | cons u us ih =>
    simp only [renderAll] at h
    match hr : Decoder.render rs u with
    | (.error e, rs2) => rw [hr] at h; simp at h
    | (.ok x, rs2) =>
      rw [hr] at h
      simp only at h
      match hm : renderAll rs2 us with
      | none => rw [hm] at h; simp at h
      | some (ys, rs3) =>
        rw [hm] at h
        simp only [Option.some.injEq, Prod.mk.injEq] at h
        obtain ⟨rfl, rfl⟩ := h
        simp [ih hm]

private theorem renderAll_cons {rs rs' : B.State} {u : OutputUnit} {us : List OutputUnit} {xs : List Rendered}
    (h : renderAll rs (u :: us) = some (xs, rs')) :
    ∃ x rs2 ys, Decoder.render rs u = (.ok x, rs2) ∧ renderAll rs2 us = some (ys, rs') ∧ xs = x :: ys := by
  simp only [renderAll] at h
  match hr : Decoder.render rs u with
  | (.error e, rs2) => rw [hr] at h; simp at h
  | (.ok x, rs2) =>
    rw [hr] at h
    simp only at h
    match hm : renderAll rs2 us with
    | none => rw [hm] at h; simp at h
    | some (ys, rs3) =>
      rw [hm] at h
      simp only [Option.some.injEq, Prod.mk.injEq] at h
      obtain ⟨rfl, rfl⟩ := h
      exact ⟨x, rs2, ys, rfl, hm, rfl⟩

theorem Whole.length {d : Decoder B} {p : Processor B} {W Qs : List Bits} {xs : List Rendered} (h : Whole d p W Qs xs) :
    xs.length = W.length + Qs.length := by
  obtain ⟨outs, rs, h1, h2⟩ := h.rest
  rw [renderAll_length h2, h1.length]

theorem tight_flush {b b' : RBuf} (h : b.Fit) (hb : b.flush = (.ok (), b')) : 8 * b'.src.length < b'.abs.rest.length + 8 := by
  obtain ⟨r', h1, h2, h3, h4, h5, h6⟩ := flush_refines b h.wf
  rw [h1] at hb
  simp only [Prod.mk.injEq, true_and] at hb
  subst hb
  have e : r'.abs.src = bytesBits r'.src := rfl
  have l := bytesBits_length r'.src
  rw [← e] at l
  have hp : r'.abs.pos = b.abs.pos % 8 := by rw [h5]
  simp only [RS.rest, List.length_drop]
  have := h.pos
  omega

/-- `DecodeOneTemporalUnit`, when all units can be decoded. -/
theorem Whole.decodeOne {d : Decoder B} {p : Processor B} {W Qs : List Bits} {xs : List Rendered} (h : Whole d p W Qs xs)
    (hre : ∀ x ∈ xs, ∃ y, d.reordered x = .ok y) :
    ∃ d' p', Decoder.decodeOne true d = (.ok (), d') ∧ d'.settings = d.settings ∧ d'.ended = d.ended ∧ d'.reorderer = d.reorderer ∧
      d'.descriptors = d.descriptors ∧ p'.layout = p.layout ∧
      match W with
      | [] => Whole d' p' [] Qs xs ∧ d'.pending = d.pending
      | _ :: W' => ∃ x xs', xs = x :: xs' ∧ d.reordered x = .ok d'.pending ∧ Whole d' p' W' Qs xs' := by
  obtain ⟨outs, rs, hrest, hrend⟩ := h.rest
  obtain ⟨n, em, st2, outs2, w1, w2, w3, w4⟩ := hrest.whole
  have hfuel : d.buffer.abs.rest.length / 8 < (((d.buffer.abs.src.length - d.buffer.abs.pos) / 8 : Nat) : Int).toNat + 1 := by
    simp only [RS.rest, List.length_drop, Int.toNat_natCast]; omega
  obtain ⟨u, cont, st', s', hx, hlen, hcase⟩ := loop_whole h.fit.pos h.fit.rest hfuel h.good w1 w2
  have hrun : (processUnit p.context true p.state).runA d.buffer.abs = (.ok (.ok (u, cont), st'), s') := by
    unfold processUnit
    simp only [Rd.runA]
    exact hx
  have hfit := h.fit.run (processUnit p.context true p.state)
  obtain ⟨q1, -, q3, -⟩ := (processUnit p.context true p.state).run_refines d.buffer h.fit.wf
  rw [hrun] at q1 q3
  unfold Decoder.decodeOne
  rw [h.processor]
  simp only
  match hy : (processUnit p.context true p.state).run d.buffer with
  | (.error e, b) => rw [hy] at q1; simp at q1
  | (.ok (.error e, st), b) => rw [hy] at q1; simp at q1
  | (.ok (.ok (u1, cont1), st), b) =>
    rw [hy] at q1 q3 hfit
    simp only [Except.ok.injEq, Prod.mk.injEq] at q1 q3
    obtain ⟨⟨rfl, rfl⟩, rfl⟩ := q1
    obtain ⟨b', hb1, hb2, hb3⟩ := hfit.flush
    have htight := tight_flush hfit hb1
    rw [q3] at hb3
    have hst : ∃ outs', outs = u1.toList ++ outs' ∧ Rest p.context st b'.abs.rest (W.drop u1.toList.length) Qs outs' ∧ st.Good ∧
        (u1 = none → W = []) := by
      rcases hcase with ⟨w, k, rfl, -, hk⟩ | ⟨rfl, hfl, hnil⟩
      · obtain ⟨outs', e1, e2⟩ := hrest.steps h.fit.rest hk
        rw [hb3]
        exact ⟨outs', e1, e2, (steps_good h.good h.fit.rest hk).1, by simp⟩
      · have hg2 := (steps_good h.good h.fit.rest w1).1
        obtain ⟨outs', e1, e2⟩ := w4.flush hg2
        have hl1 := w4.length
        have hl2 := hrest.length
        rw [← hfl] at e1 e2 hl1
        have htw := Good.flush_twice hg2
        rw [← hfl] at htw
        simp only at e1 e2 htw hl1
        rw [List.nil_append] at w3
        subst w3
        have hW : W.length = u1.toList.length := by omega
        rw [List.drop_of_length_le (by omega), hb3, hnil]
        refine ⟨outs', e1, Rest.start e2 (by rw [htw]), ?_, ?_⟩
        · have := Good.flush hg2
          rw [← hfl] at this
          exact this
        · rintro rfl
          simpa using hW
    obtain ⟨outs', rfl, hrest', hg', hnone⟩ := hst
    match u1 with
    | none =>
      simp only [hb1]
      obtain rfl := hnone rfl
      refine ⟨_, { p with state := st }, rfl, rfl, rfl, rfl, rfl, rfl, ⟨rfl, hb2, hg', h.mode, htight, ?_⟩, rfl⟩
      simp only [Option.toList_none, List.nil_append, List.length_nil, List.drop_zero] at hrest' hrend
      exact ⟨outs', rs, hrest', hrend⟩
    | some w =>
      simp only [Option.toList_some, List.singleton_append, List.length_cons, List.length_nil] at hrend hrest' hrest
      obtain ⟨x, rs2, ys, hr1, hr2, rfl⟩ := renderAll_cons hrend
      obtain ⟨y, hy2⟩ := hre x List.mem_cons_self
      simp only [hr1, hy2, hb1]
      refine ⟨_, { p with state := st, renderer := rs2 }, rfl, rfl, rfl, rfl, rfl, rfl, ?_⟩
      have hWl : W ≠ [] := by
        rintro rfl
        have l1 := hrest.length
        have l2 := hrest'.length
        simp only [List.length_cons, List.drop_nil, List.length_nil] at l1 l2
        omega
      clear hcase hnone
      cases W with
      | nil => exact absurd rfl hWl
      | cons a W' => exact ⟨x, ys, rfl, hy2, ⟨rfl, hb2, hg', h.mode, htight, ⟨outs', rs, hrest', hr2⟩⟩⟩

theorem Whole.push {d : Decoder B} {p : Processor B} {W Qs : List Bits} {xs : List Rendered} {parts : List (List UInt8)}
    (h : Whole d p W (parts.map bytesBits ++ Qs) xs) (hs : W.flatten.length + 8 * parts.flatten.length ≤ 8 * 4194304)
    (ro : Option UInt8) : ∃ b, d.buffer.pushBytes parts.flatten = (.ok (), b) ∧
      Whole { d with buffer := b, processor := some p, reorderer := ro } p (W ++ parts.map bytesBits) Qs xs := by
  obtain ⟨outs, rs, h1, h2⟩ := h.rest
  have hbits := h1.bits
  have ht := h.tight
  obtain ⟨b, hb, -⟩ := push_refines parts.flatten d.buffer h.fit.wf h.fit.cap (by simp only [kEntireObuSizeMaxTwoMegabytes]; omega)
  obtain ⟨f1, f2, f3⟩ := h.fit.push hb
  have hrest : b.abs.rest = d.buffer.abs.rest ++ bytesBits parts.flatten := by
    rw [f3]
    simp only [RS.rest]
    rw [List.drop_append_of_le_length h.fit.pos]
  have hfl : bytesBits parts.flatten = (parts.map bytesBits).flatten := by
    clear * -
    induction parts with
    | nil => rfl
    | cons a l ih => simp only [List.flatten_cons, List.map_cons, bytesBits_append, ih]
  refine ⟨b, hb, rfl, f1, h.good, h.mode, ?_, outs, rs, ?_, h2⟩
  · rw [hrest, f2, List.length_append, List.length_append, bytesBits_length]; omega
  · rw [hrest, hfl]; exact h1.push

private theorem seek_back (s : RS) (p : Nat) (hv : s.valid = true) (hp : p ≤ s.src.length) :
    s.seek (p : Int) = (.ok (), ⟨s.src, p, true⟩) := by
  unfold RS.seek
  simp only [hv, Bool.not_true, Bool.false_eq_true, ↓reduceIte, Int.toNat_natCast]
  rw [if_neg (by omega), if_neg (by omega)]

private theorem creates {s : DecoderSettings} {ex : Bool} {P : List UInt8} {v : Bool} {x : Descriptors} {p : Processor B} (hP : P.length ≤ 4194304)
    (h : ((parseDescriptors ex).runA ⟨bytesBits P, 0, true⟩).1 = .ok (some x)) (hi : initAll s x = .ok p) :
    ∃ y, ((createProcessor (B := B) s ex).runA ⟨bytesBits P, 0, v⟩).1 = .ok (some y) := by
  unfold createProcessor
  simp only [Rd.runA]
  have he := parse_ends ex (bytesBits P) 0 true (Nat.zero_le _) (by rw [bytesBits_length]; omega)
  have hv := Rd.runA_valid (parseDescriptors ex) ⟨bytesBits P, 0, true⟩ rfl
  match hx : (parseDescriptors ex).runA ⟨bytesBits P, 0, true⟩ with
  | (.error e, s1) => rw [hx] at h; simp at h
  | (.ok none, s1) => rw [hx] at h; simp at h
  | (.ok (some x'), s1) =>
    rw [hx] at h he hv
    simp only [Except.ok.injEq, Option.some.injEq] at h hv
    subst h
    obtain ⟨-, -, a3, -, a5, a6, -⟩ := he.done x' rfl
    simp only at a3 a5 a6
    simp only [hi, Rd.runA]
    rw [seek_back ⟨s1.src, s1.pos, true⟩ 0 rfl (Nat.zero_le _)]
    simp only [Rd.runA_bind]
    obtain ⟨k, hk⟩ : ∃ k, s1.pos = 8 * k := ⟨s1.pos / 8, by omega⟩
    rw [bytesBits_length] at a5
    have hn : (((s1.pos : Int) - ((0 : Nat) : Int)) / 8).toNat = (P.take k).length := by rw [List.length_take]; omega
    rw [hn]
    obtain ⟨w, hw, hw2⟩ := reads_bytes (P.take k) ⟨s1.src, 0, true⟩ (Nat.zero_le _) (by
      simp only [RS.rest, List.drop_zero, a3]
      rw [← bytesBits_take]
      exact List.take_prefix _ _)
    rw [hw]
    exact ⟨_, rfl⟩

/-- `CreateObuProcessor`, when descriptors are found at the beginning of the data and can be rendered. -/
theorem setUp_ok {d : Decoder B} {P : List UInt8} {k : Nat} {x : Descriptors} {p : Processor B} (hf : d.buffer.Fit) (hs : d.buffer.src = P)
    (hpos : d.buffer.abs.pos = 0)
    (hx : ((parseDescriptors d.fromDescriptors).runA ⟨bytesBits P, 0, true⟩).1 = .ok (some x))
    (hk : ((parseDescriptors d.fromDescriptors).runA ⟨bytesBits P, 0, true⟩).2.pos = 8 * k) (hi : initAll d.settings x = .ok p) :
    ∃ b, d.setUp = (.ok true, { d with buffer := b, processor := some p, descriptors := P.take k }) ∧ b.Fit ∧ b.src = P.drop k ∧
      b.abs.pos = 0 := by
  have hP : P.length ≤ 4194304 := by rw [← hs]; exact hf.small
  have habs : d.buffer.abs = ⟨bytesBits P, 0, d.buffer.abs.valid⟩ := by
    have h2 : d.buffer.abs.src = bytesBits P := by simp only [RBuf.abs, hs]
    rw [← h2, ← hpos]
  obtain ⟨y, hy⟩ := creates (v := d.buffer.abs.valid) hP hx hi
  obtain ⟨q1, -, q3, q4⟩ := (createProcessor (B := B) d.settings d.fromDescriptors).run_refines d.buffer hf.wf
  have qf := hf.run (createProcessor (B := B) d.settings d.fromDescriptors)
  unfold Decoder.setUp
  match hr : (createProcessor (B := B) d.settings d.fromDescriptors).run d.buffer with
  | (.error e, b1) => rw [hr, habs, hy] at q1; simp at q1
  | (.ok none, b1) => rw [hr, habs, hy] at q1; simp at q1
  | (.ok (some (p', bs)), b1) =>
    rw [hr] at q1 q3 q4 qf
    rw [habs] at q1 q3
    simp only at q1 q3 q4 qf
    have hrun : (createProcessor (B := B) d.settings d.fromDescriptors).runA ⟨bytesBits P, 0, d.buffer.abs.valid⟩ =
        (.ok (some (p', bs)), b1.abs) := Prod.ext q1.symm q3.symm
    obtain ⟨x', k', c1, c2, c3, c4, c5, c6⟩ := createProcessor_runA hP hrun
    rw [hx] at c1
    obtain rfl := Option.some.inj (Except.ok.inj c1)
    rw [hi] at c2
    obtain rfl := Except.ok.inj c2
    obtain rfl : k' = k := by omega
    subst c6
    obtain ⟨b2, f1, f2, f3, f4, f5, f6⟩ := flush_refines b1 qf.wf
    simp only [f1]
    have hbp : b1.abs.pos = 8 * k' := by rw [c5]
    obtain ⟨b3, g1, g2, -⟩ := qf.flush
    rw [f1, Prod.mk.injEq] at g1
    obtain ⟨-, rfl⟩ := g1
    refine ⟨b2, rfl, g2, ?_, ?_⟩
    · rw [f3, q4, hs, hbp, Nat.mul_div_cancel_left _ (by omega : 0 < 8)]
    · have : b2.abs.pos = b1.abs.pos % 8 := by rw [f5]
      omega

end Iamf
