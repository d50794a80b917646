import Verif.Props.Tool
/-
  C56: a WAV file that is encoded and decoded.
-/
namespace Iamf.Props
open Iamf

variable {P : EncoderParts} {W : WavLib}

/-! ### Specification -/

/-- The samples of a channel of a WAV file that were chosen for a label. -/
def wavSound (content : W.Source → List Int32) (f : WavFile W) (channels : List (Label × UInt32)) (l : Label) : List Int32 := match channels.lookup l with
  | some c => channelOf content f c
  | none => []

/-! ### The encoder takes samples -/

theorem plain_taking {s : EncoderSetup lpcmEncoders P FileOutput} {i : UInt32} {o : Obu ElementWithData} {labels : List Label} {trimStart trimEnd : UInt32} {includesDelay : Bool}
    {f : FileOutput} (hs : PlainSetup s i o labels trimStart trimEnd includesDelay f) {c : CodecObu} {pcm : LpcmConfig} {order : List Label} (he : PlainElement o.body c pcm order)
    (hv : ValidLpcm pcm) (hn0 : 0 < c.config.numSamplesPerFrame.toNat) (hsub : o.body.data.labels ≠ []) {e : IamfEncoder lpcmEncoders P FileOutput} (h : s.create fileSink = .ok e) :
    e.generator.takingSamples = true := by
  obtain ⟨definitions, generator, -, hd, -, hi⟩ := initial_inner (linear := fun _ => 0) h
  obtain ⟨fss, g, h1, h2, -⟩ := hi.frames
  have hg : g = generator := by
    change Except.ok ([], generator) = _ at h1
    simp only [Except.ok.injEq, Prod.mk.injEq] at h1
    exact h1.2.symm
  subst hg
  unfold EncoderSetup.generator at hd
  obtain ⟨tm, htm⟩ : ∃ x, TimingModule.create (s.elements.map fun e => e.2.timed) (definitions.map fun p => (p.1, p.2.1.base.rate)) = x := ⟨_, rfl⟩
  rw [htm] at hd
  cases tm with
  | none => cases hd
  | some tm =>
    obtain ⟨m, hm, hd⟩ := except_ok.mp hd
    rw [hs.encoder] at hd
    obtain ⟨-, hprep⟩ := plain_prepared hs he hv hn0 hsub htm hm
    have := create_spec hprep (fun _ => 0) (fun _ => True)
    rw [hd] at this
    rw [h2]
    unfold FrameGenerator.takingSamples FrameGenerator.retimed
    simp only [this.2.2.1, decide_true]

/-! ### Calls that make no difference -/

private theorem idle_calls {e0 e' : IamfEncoder lpcmEncoders P FileOutput} {linear : Int16 → Rat} {s : EncoderSetup lpcmEncoders P FileOutput} (h0 : s.create fileSink = .ok e0) :
    ∀ (turns : List ToolTurn) (cs : List IamfEncoderCall) (as answers : List IamfEncoderAnswer) (e : IamfEncoder lpcmEncoders P FileOutput),
      (∀ t ∈ turns, t.last = true ∧ t.input.blocks = []) → e0.calls fileSink linear cs = .ok (as, e) → .finalizeEncode ∈ cs →
      e.calls fileSink linear (callsOf turns) = .ok (answers, e') →
      ∃ answers', e.calls fileSink linear (turns.map fun t => .output t.rank []) = .ok (answers', e')
  | [], _, _, _, e, _, _, _, h => ⟨[], by
      change Except.ok ([], e) = _ at h
      simp only [Except.ok.injEq, Prod.mk.injEq] at h
      rw [← h.2]; rfl⟩
  | t :: turns, cs, as, answers, e, ht, hcs, hf, h => by
    obtain ⟨hlast, hblocks⟩ := ht t List.mem_cons_self
    have hran : Ran fileSink linear s cs e := ⟨e0, as, h0, hcs⟩
    have hfin := C46_finalizing_again_does_nothing s hran hf
    have henc : e.call fileSink linear (.encode t.input) = .ok (.done, e) := by
      have := C46_samples_after_finalizing_are_ignored s hran hf [] t.input.samples []
      have e1 : t.input = ⟨[], t.input.samples⟩ := by rw [← hblocks]
      rw [e1, this]
      have hsame : (e.encode ⟨[], []⟩) = (.ok (), e) := by
        unfold IamfEncoder.encode IamfEncoder.addBlocks
        simp only
        split <;> rfl
      simp only [IamfEncoder.call, hsame]
    have hcalls : callsOf (t :: turns) = [.encode t.input, .finalizeEncode, .output t.rank []] ++ callsOf turns := by
      unfold callsOf
      rw [List.flatMap_cons, ToolTurn.calls, hlast]
      rfl
    rw [hcalls] at h
    obtain ⟨e1, x, y, g1, g2, -⟩ := encoder_calls_split h
    have hout : ∃ a, e.call fileSink linear (.output t.rank []) = .ok (a, e1) := by
      simp only [IamfEncoder.calls, bind, Except.bind, henc, hfin] at g1
      cases hc : e.call fileSink linear (.output t.rank []) with
      | error z => rw [hc] at g1; cases g1
      | ok z =>
        rw [hc] at g1
        simp only [Except.ok.injEq, Prod.mk.injEq] at g1
        exact ⟨z.1, by rw [← g1.2]⟩
    obtain ⟨a, hout⟩ := hout
    have hone : e.calls fileSink linear [.output t.rank []] = .ok ([a], e1) := by
      simp only [IamfEncoder.calls, bind, Except.bind, hout]
    obtain ⟨rest, hr⟩ := idle_calls h0 turns (cs ++ [.output t.rank []]) (as ++ [a]) y e1 (fun u hu => ht u (List.mem_cons_of_mem _ hu))
      (encoder_calls_of hcs hone) (List.mem_append_left _ hf) g2
    exact ⟨[a] ++ rest, encoder_calls_of (as := [.output t.rank []]) hone hr⟩

/-! ### Parts -/

private theorem chunk_parts {α : Type} (n : Nat) (s : List α) : ∀ m : Nat, (List.range m).flatMap (fun k => chunk n k s) = s.take (m * n)
  | 0 => by simp
  | m + 1 => by
    rw [List.range_succ, List.flatMap_append, chunk_parts n s m, List.flatMap_singleton, chunk, Nat.add_mul, Nat.one_mul, List.take_add]

private theorem chunk_length {α : Type} (n k : Nat) (s : List α) : (chunk n k s).length = min n (s.length - k * n) := by
  unfold chunk
  rw [List.length_take, List.length_drop]

private theorem take_flatMap {α β : Type} (l : List α) (F : α → List β) (G : Nat → List β) : ∀ m : Nat, (∀ k, k < m → ∃ t, l[k]? = some t ∧ F t = G k) →
    (l.take m).flatMap F = (List.range m).flatMap G
  | 0, _ => by simp
  | m + 1, h => by
    obtain ⟨t, h1, h2⟩ := h m (by omega)
    rw [List.take_succ, h1, List.flatMap_append, take_flatMap l F G m fun k hk => h k (by omega), List.range_succ, List.flatMap_append, List.flatMap_singleton]
    simp [h2]

private theorem lookup_of_pair {β : Type} {l : List (Label × β)} (hn : (l.map Prod.fst).Nodup) {y : Label × β} (hy : y ∈ l) : l.lookup y.1 = some y.2 := by
  induction l with
  | nil => cases hy
  | cons a l ih =>
    rw [List.map_cons, List.nodup_cons] at hn
    rw [List.lookup_cons]
    rcases List.mem_cons.mp hy with rfl | hy
    · simp
    · have : y.1 ≠ a.1 := fun h => hn.1 (h ▸ List.mem_map_of_mem (f := Prod.fst) hy)
      rw [beq_eq_false_iff_ne.mpr this]
      exact ih hn.2 hy

/-- A part of the samples of all labels, as it is given to the encoder. -/
def wavBlock (content : W.Source → List Int32) (f : WavFile W) (channels : List (Label × UInt32)) (n k : Nat) (l : Label) : Samples :=
  (chunk n k (wavSound content f channels l)).map int32ToNormalized

/-! ### The calls of the program -/

/-- **C56.** The program uses an encoder as it is meant to be used.  For one audio element coded as LPCM with a WAV file that is not empty, and no parameter blocks, what the program does is what is done by giving all of the WAV file to the encoder, as full frames and a last block
that is not empty, followed by `FinalizeEncode`, and then asking for temporal units until there are no more. -/
theorem C56_the_program_is_a_proper_loop (linear : Int16 → Rat) (content : W.Source → List Int32) (hW : HonestWav W content)
    -- the encoder
    (s : EncoderSetup lpcmEncoders P FileOutput) (i : UInt32) (o : Obu ElementWithData) (trimStart trimEnd : UInt32) (includesDelay : Bool)
    (channels : List (Label × UInt32)) (out : FileOutput) (hs : PlainSetup s i o (channels.map Prod.fst) trimStart trimEnd includesDelay out)
    (c : CodecObu) (pcm : LpcmConfig) (order : List Label) (he : PlainElement o.body c pcm order) (hv : ValidLpcm pcm) (hn0 : 0 < c.config.numSamplesPerFrame.toNat)
    (hsub : o.body.data.labels ≠ [])
    -- the WAV file
    (f : WavFile W) (hch : f.channels ≠ 0) (total : Nat) (htotal : (content f.source).length = total * f.channels) (hsome : total ≠ 0)
    -- the program
    (orders : Nat → ToolOrder) (ho : ∀ k l, ((orders k).blocks l).Perm l) (fuel : Nat) (e0 e : IamfEncoder lpcmEncoders P FileOutput) (h0 : s.create fileSink = .ok e0)
    (h : encodeWavs fileSink linear [⟨i, channels, some f⟩] [] orders fuel e0 = .ok e) :
    ∃ (turns : List Turn) (last : Label → Samples) (outs : List ((UInt32 × Label → Nat) × List UInt8)) (answers : List IamfEncoderAnswer),
      e0.calls fileSink linear (encoderLoop i (channels.map Prod.fst) turns (some last) outs) = .ok (answers, e) ∧ e.generating = false ∧ outs ≠ [] ∧
      turns.length = (total - 1) / c.config.numSamplesPerFrame.toNat ∧ (∀ t ∈ turns, ∀ l ∈ channels.map Prod.fst, (t.block l).length = c.config.numSamplesPerFrame.toNat) ∧
      (∃ k, k ≠ 0 ∧ ∀ l ∈ channels.map Prod.fst, (last l).length = k) ∧
      ∀ l, soundIn turns (some last) l = (wavSound content f channels l).map int32ToNormalized := by
  have hel : s.elements = [(i, o.body)] := by unfold EncoderSetup.elements; rw [hs.element]; rfl
  have hseq : elementsOf e0 = [(i, o.body)] := by
    obtain ⟨definitions, generator, -, -, -, hi⟩ := initial_inner (linear := fun _ => 0) h0
    have hq := hi.sequence
    have hcalled : ended e0 = false := by
      have := hi.called
      cases hb : ended e0 with
      | false => rfl
      | true =>
        rw [ended_iff] at hb
        rw [hb.1] at this
        cases this
    rw [hcalled] at hq
    simp only [Bool.false_eq_true, if_false] at hq
    unfold elementsOf
    rw [hq]
    exact hel
  obtain ⟨ts, answers, hcalls, hgen, -, hblocks, hts⟩ := C56_what_the_encoder_is_given fileSink linear content hW [⟨i, channels, some f⟩] (by
    intro y hy g hg
    rw [List.mem_singleton] at hy
    subst hy
    obtain rfl := Option.some.inj hg
    exact hch) [] orders ho fuel e0 e (by rw [hseq]; simp) h
  rw [hseq] at hts
  obtain ⟨n, hn⟩ : ∃ n, c.config.numSamplesPerFrame.toNat = n := ⟨_, rfl⟩
  rw [hn] at hn0 ⊢
  obtain ⟨m, hm⟩ : ∃ m, (total - 1) / n = m := ⟨_, rfl⟩
  rw [hm]
  have hm1 : m * n < total := by
    have := Nat.div_mul_le_self (total - 1) n
    rw [hm] at this
    omega
  have hm2 : total ≤ (m + 1) * n := by
    have := Nat.lt_mul_div_succ (total - 1) hn0
    rw [hm, Nat.mul_comm] at this
    omega
  -- each iteration
  have hturn : ∀ (k : Nat) t, ts[k]? = some t → t.input = soundOf i (channels.map Prod.fst) (wavBlock content f channels n k) ∧ (t.last = true ↔ m ≤ k) := by
    intro k t ht
    obtain ⟨⟨reads, r1, r2, r3, r4⟩, -⟩ := hts k t ht
    obtain ⟨r, rfl, hri⟩ : ∃ r : WavRead, reads = [r] ∧ r.element = i := by
      match reads, r1 with
      | [r], r1 => exact ⟨r, rfl, by simpa using r1⟩
    obtain ⟨x, g, e', c', x1, x2, x3, x4, x5, x6, x7, x8, x9⟩ := r2 r (List.mem_singleton.mpr rfl)
    rw [List.mem_singleton] at x1
    subst x1
    obtain rfl := Option.some.inj x3
    rw [hri, List.lookup_cons, beq_self_eq_true] at x4
    obtain rfl := Option.some.inj x4
    rw [he.codec] at x5
    obtain rfl := Option.some.inj x5
    simp only at x6 x7 x8
    rw [hn] at x8 x9
    constructor
    · have hb : t.input.blocks = [] := by
        cases hb : t.input.blocks with
        | nil => rfl
        | cons b bs =>
          have := (hblocks.known k t ht b (by rw [hb]; exact List.mem_cons_self)).1
          cases this
      have hsam : t.input.samples = (channels.map Prod.fst).map fun l => ((i, l), wavBlock content f channels n k l) := by
        rw [r3, List.flatMap_singleton, x8, List.map_map, List.map_map]
        refine List.map_congr_left fun y hy => ?_
        simp only [Function.comp, hri]
        unfold wavBlock wavSound
        rw [lookup_of_pair x6 hy]
      obtain ⟨u, hu⟩ : ∃ u, t.input = u := ⟨_, rfl⟩
      rw [hu] at hb hsam ⊢
      obtain ⟨bs, ss⟩ := u
      simp only at hb hsam
      subst hb hsam
      rfl
    · rw [r4]
      simp only [List.getLast?_singleton, Option.map_some, Option.getD_some]
      rw [x9, htotal, ← Nat.mul_assoc, Nat.mul_le_mul_right_iff (Nat.pos_of_ne_zero hch)]
      constructor
      · intro hle
        refine Nat.le_of_not_lt fun hlt => ?_
        have := Nat.mul_le_mul_right n (show k + 1 ≤ m by omega)
        omega
      · intro hle
        have := Nat.mul_le_mul_right n (show m + 1 ≤ k + 1 by omega)
        omega
  -- there is a last iteration
  have hlong : m < ts.length := by
    refine Nat.lt_of_not_le fun hle => ?_
    have hnot : IamfEncoderCall.finalizeEncode ∉ callsOf ts := by
      intro hmem
      obtain ⟨t, ht, hmem⟩ := List.mem_flatMap.mp hmem
      obtain ⟨k, hk⟩ := List.getElem?_of_mem ht
      have hkl := (List.getElem?_eq_some_iff.mp hk).1
      have hnl : t.last = false := Bool.eq_false_iff.mpr fun hc => by
        have := (hturn k t hk).2.mp hc
        omega
      rw [ToolTurn.calls, hnl] at hmem
      simp at hmem
    have := C46_generating_until_finalized s h0 (plain_taking hs he hv (by rw [hn]; exact hn0) hsub h0) hcalls hnot
    rw [hgen] at this
    cases this
  obtain ⟨t, ht⟩ : ∃ t, ts[m]? = some t := ⟨_, List.getElem?_eq_getElem hlong⟩
  obtain ⟨ranks, hranks⟩ : ∃ ranks : Nat → UInt32 × Label → Nat, ∀ (k : Nat) t, ts[k]? = some t → ranks k = t.rank :=
    ⟨fun k => ((ts[k]?).map (·.rank)).getD fun _ => 0, fun k t ht => by simp only [ht]; rfl⟩
  obtain ⟨turns, hturns⟩ : ∃ turns : List Turn, turns = (List.range m).map fun k => ⟨wavBlock content f channels n k, ranks k, []⟩ := ⟨_, rfl⟩
  have hsplit : callsOf ts = callsOf (ts.take m) ++ (t.calls ++ callsOf (ts.drop (m + 1))) := by
    have : ts = ts.take m ++ t :: ts.drop (m + 1) := by
      have e1 : t :: ts.drop (m + 1) = ts.drop m := by
        rw [List.drop_eq_getElem_cons hlong, (List.getElem?_eq_some_iff.mp ht).2]
      rw [e1, List.take_append_drop]
    conv_lhs => rw [this]
    unfold callsOf
    rw [List.flatMap_append, List.flatMap_cons]
  have hfirst : callsOf (ts.take m) = turns.flatMap fun t => [.encode (soundOf i (channels.map Prod.fst) t.block), .output t.rank t.buffer] := by
    unfold callsOf
    rw [hturns, List.flatMap_map]
    refine take_flatMap ts _ _ m fun k hk => ?_
    obtain ⟨u, hu⟩ : ∃ u, ts[k]? = some u := ⟨_, List.getElem?_eq_getElem (by omega)⟩
    refine ⟨u, hu, ?_⟩
    obtain ⟨u1, u2⟩ := hturn k u hu
    have hnl : u.last = false := Bool.eq_false_iff.mpr fun hc => by
      have := u2.mp hc
      omega
    rw [ToolTurn.calls, hnl, u1, ← hranks k u hu]
    rfl
  obtain ⟨t1, t2⟩ := hturn m t ht
  have hlast : t.calls = [.encode (soundOf i (channels.map Prod.fst) (wavBlock content f channels n m)), .finalizeEncode, .output t.rank []] := by
    rw [ToolTurn.calls, t2.mpr (Nat.le_refl _), t1]
    rfl
  rw [hsplit, hfirst, hlast, ← List.append_assoc] at hcalls
  obtain ⟨e1, x, y, g1, g2, -⟩ := encoder_calls_split hcalls
  obtain ⟨z, g3⟩ := idle_calls h0 (ts.drop (m + 1)) _ x y e1 (by
    intro u hu
    obtain ⟨k, hk⟩ := List.getElem?_of_mem hu
    rw [List.getElem?_drop] at hk
    obtain ⟨u1, u2⟩ := hturn _ u hk
    exact ⟨u2.mpr (by omega), by rw [u1]; rfl⟩) g1 (by simp) g2
  have hlen : ∀ l ∈ channels.map Prod.fst, (wavSound content f channels l).length = total := by
    intro l hl
    obtain ⟨y, hy, rfl⟩ := List.mem_map.mp hl
    unfold wavSound
    rw [lookup_of_pair hs.once.2 hy]
    unfold channelOf
    rw [wavChannel_length, htotal, Nat.mul_div_cancel _ (Nat.pos_of_ne_zero hch)]
  refine ⟨turns, wavBlock content f channels n m, (t.rank, []) :: (ts.drop (m + 1)).map fun u => (u.rank, []), x ++ z, ?_, hgen, by simp, ?_, ?_, ?_, ?_⟩
  · have := encoder_calls_of g1 g3
    rw [← this]
    congr 1
    unfold encoderLoop
    simp [List.map_map, Function.comp_def]
  · rw [hturns, List.length_map, List.length_range]
  · rw [hturns]
    intro u hu l hl
    obtain ⟨k, hk, rfl⟩ := List.mem_map.mp hu
    rw [List.mem_range] at hk
    simp only [wavBlock, List.length_map, chunk_length, hlen l hl]
    have := Nat.mul_le_mul_right n (show k + 1 ≤ m by omega)
    rw [Nat.add_mul, Nat.one_mul] at this
    omega
  · refine ⟨total - m * n, by omega, fun l hl => ?_⟩
    simp only [wavBlock, List.length_map, chunk_length, hlen l hl]
    rw [Nat.add_mul, Nat.one_mul] at hm2
    omega
  · intro l
    unfold soundIn
    have e1 : turns.map Turn.block ++ (some (wavBlock content f channels n m)).toList = (List.range (m + 1)).map fun k => wavBlock content f channels n k := by
      rw [hturns, List.map_map, List.range_succ, List.map_append]
      rfl
    rw [e1, List.flatMap_map]
    unfold wavBlock
    rw [← List.map_flatMap, chunk_parts, List.take_of_length_le]
    by_cases hl : l ∈ channels.map Prod.fst
    · rw [hlen l hl]; exact hm2
    · have : channels.lookup l = none := by
        rw [List.lookup_eq_none_iff]
        intro y hy
        refine bne_iff_ne.mpr ?_
        rintro rfl
        exact hl (List.mem_map_of_mem (f := Prod.fst) hy)
      unfold wavSound
      rw [this]
      exact Nat.zero_le _

/-- The file that the program writes, and what it is decoded to. -/
theorem wav_parts (M : GainMath Rat) (hM : M.linear 0 = 1) (E : RenderEnv) (hE : GoodEnv E) (C : Codecs) (linear : Int16 → Rat)
    (content : W.Source → List Int32) (hW : HonestWav W content)
    -- the encoder
    (s : EncoderSetup lpcmEncoders P FileOutput) (i : UInt32) (o : Obu ElementWithData) (trimStart trimEnd : UInt32) (includesDelay : Bool)
    (channels : List (Label × UInt32)) (out : FileOutput) (hs : PlainSetup s i o (channels.map Prod.fst) trimStart trimEnd includesDelay out)
    (e0 : IamfEncoder lpcmEncoders P FileOutput) (h0 : s.create fileSink = .ok e0)
    -- the WAV file
    (f : WavFile W) (hch : f.channels ≠ 0) (total : Nat) (htotal : (content f.source).length = total * f.channels) (hsome : total ≠ 0)
    -- the program
    (orders : Nat → ToolOrder) (ho : ∀ k l, ((orders k).blocks l).Perm l) (fuel : Nat) (e : IamfEncoder lpcmEncoders P FileOutput)
    (h : encodeWavs fileSink linear [⟨i, channels, some f⟩] [] orders fuel e0 = .ok e)
    -- the descriptors that are written in the end
    (m : List (Obu MixPresentation)) (hm : P.finish e.finalizer = .ok m) (hbuilt : BuiltSequence (withMixes s.descriptors m)) (x : Descriptors)
    (hx : SameDescriptors (withMixes s.descriptors m) x) (n : UInt32) (hn : n ≠ 0) (hplay : Playable x n) (e' : ElementWithData)
    (he' : x.elements.lookup i = some e') (c : CodecObu) (pcm : LpcmConfig) (order : List Label) (hp : PlainPcm e' c pcm order) (hpcm : ValidLpcm pcm)
    (hmix : ∀ p ∈ x.mixes, ∀ b ∈ p.subMixes, ∃ a, b.elements = [a] ∧ a.id = i ∧ NoGain a.mixGain c.outputRate ∧ NoGain b.outputMixGain c.outputRate)
    -- the lengths
    (hroom : trimEnd.toNat + channels.length * (total + n.toNat) + n.toNat < 4294967296)
    -- the decoder
    (ds : DecoderSettings) (hst : ds.sampleType = 1 ∨ ds.sampleType = 2)
    (p0 : Processor (standardBackend M E C ⟨true, true⟩)) (hi : initAll ds x = .ok p0) (sys r : UInt8) (hlay : p0.layout = ⟨2, .soundSystem sys r⟩)
    (hfit : Fits order (systemPlaces sys)) :
    ∃ (descriptors : List UInt8) (units : List (List UInt8)) (views : List TemporalUnitView) (xs : List Rendered) (bs : List (List UInt8)),
      (e.others.map fun q => q.sink.disk) = [some (descriptors ++ units.flatten)] ∧
      Transmitted (withMixes s.descriptors m) x n views s.delimiters ∧ DescriptorBytes s.lebs (withMixes s.descriptors m) descriptors ∧
      List.Forall₂ (UnitBytes s.lebs s.delimiters) views units ∧
      Renders (standardBackend M E C ⟨true, true⟩) p0.renderer (unitsBack x n 0 [] views) xs ∧ List.Forall₂ (OutputBytes ds.sampleType) xs bs ∧
      (∀ b ∈ bs, b.length ≤ order.length * n.toNat * (2 * ds.sampleType)) ∧
      (∀ y ∈ xs, y.length = order.length ∧ ∃ ticks ≤ n.toNat, ∀ c ∈ y, c.length = ticks) ∧
      DeliveredUnit pcm.sampleSize ds.sampleType order (wavSound content f channels) trimStart.toNat
        (total - trimEnd.toNat - trimStart.toNat) bs.flatten := by
  have hxe : x.elements = [(i, elementBack o.body)] := by
    have := hx.elements
    rw [show (withMixes s.descriptors m).elements = s.sequence.elements from rfl, hs.element] at this
    exact List.perm_singleton.mp this
  have hee : e' = elementBack o.body := by
    rw [hxe, List.lookup_cons, beq_self_eq_true] at he'
    exact (Option.some.inj he').symm
  subst hee
  have hele := plain_element hbuilt hs.element hp
  have hnc : c.config.numSamplesPerFrame = n := hplay.frameSize _ (by rw [hxe]; exact List.mem_singleton.mpr rfl) c hp.codec
  subst hnc
  have hids : substreamIds x = o.body.obu.substreamIds := by
    unfold substreamIds
    rw [hxe]
    simp [elementBack, carriedElement]
  have hsub : o.body.data.labels ≠ [] := by
    intro h
    have := hplay.streams
    rw [hids, ← hele.ids, h] at this
    exact this rfl
  have hn0 : 0 < c.config.numSamplesPerFrame.toNat := Nat.pos_of_ne_zero fun hc => hn (UInt32.toNat_inj.mp hc)
  obtain ⟨turns, last, outs, answers, a1, a2, a3, a4, a5, a6, a7⟩ := C56_the_program_is_a_proper_loop linear content hW s i o trimStart trimEnd includesDelay channels out hs c pcm order hele
    hpcm hn0 hsub f hch total htotal hsome orders ho fuel e0 e h0 h
  have hsound : (fun l => (soundIn turns (some last) l).map normalizedToInt32) = wavSound content f channels := by
    funext l
    rw [a7 l, List.map_map]
    conv_rhs => rw [← List.map_id (wavSound content f channels l)]
    exact List.map_congr_left fun v _ => C32_integers_come_back v
  have hlen : ∀ l ∈ channels.map Prod.fst, (soundIn turns (some last) l).length = total := by
    intro l hl
    obtain ⟨y, hy, rfl⟩ := List.mem_map.mp hl
    rw [a7, List.length_map]
    unfold wavSound
    rw [lookup_of_pair hs.once.2 hy]
    unfold channelOf
    rw [wavChannel_length, htotal, Nat.mul_div_cancel _ (Nat.pos_of_ne_zero hch)]
  have := encoded_parts M hM E hE C linear s i o (channels.map Prod.fst) trimStart trimEnd includesDelay out hs turns (some last) outs a3 e0 e answers h0 a1 a2 m hm hbuilt x hx
    c.config.numSamplesPerFrame hn hplay _ he' c pcm order hp hpcm hmix
    ⟨fun t ht => ⟨_, Nat.le_refl _, fun l hl => a5 t ht l hl⟩, fun b hb => by cases hb; exact a6, nofun, .inr nofun⟩ nofun (by
      rw [a4, List.length_map]
      have h1 : (total - 1) / c.config.numSamplesPerFrame.toNat * c.config.numSamplesPerFrame.toNat ≤ total := Nat.le_trans (Nat.div_mul_le_self _ _) (Nat.sub_le _ _)
      have h2 := Nat.mul_le_mul_left channels.length (Nat.add_le_add_right h1 c.config.numSamplesPerFrame.toNat)
      have h3 : c.config.numSamplesPerFrame.toNat * (channels.length * ((total - 1) / c.config.numSamplesPerFrame.toNat + 1) + 1) =
          channels.length * ((total - 1) / c.config.numSamplesPerFrame.toNat * c.config.numSamplesPerFrame.toNat + c.config.numSamplesPerFrame.toNat) +
            c.config.numSamplesPerFrame.toNat := by ring
      omega) total hlen ds hst p0 hi sys r hlay hfit
  rw [hsound] at this
  exact this

/-- **C56.** From a WAV file to what the user hears.  A WAV file of any length, of one audio element that is coded as LPCM without loss, encoded by the program and decoded in any way from the IA sequence that the program leaves on disk, comes out as it is in the WAV file: the samples of the
channels that were chosen for the labels, in the order of the output layout, without what the user told the encoder to trim, and nothing besides. -/
theorem C56_a_wav_file_comes_out_as_it_is (M : GainMath Rat) (hM : M.linear 0 = 1) (E : RenderEnv) (hE : GoodEnv E) (C : Codecs) (linear : Int16 → Rat)
    (content : W.Source → List Int32) (hW : HonestWav W content)
    -- the encoder
    (s : EncoderSetup lpcmEncoders P FileOutput) (i : UInt32) (o : Obu ElementWithData) (trimStart trimEnd : UInt32) (includesDelay : Bool)
    (channels : List (Label × UInt32)) (out : FileOutput) (hs : PlainSetup s i o (channels.map Prod.fst) trimStart trimEnd includesDelay out)
    (e0 : IamfEncoder lpcmEncoders P FileOutput) (h0 : s.create fileSink = .ok e0)
    -- the WAV file
    (f : WavFile W) (hch : f.channels ≠ 0) (total : Nat) (htotal : (content f.source).length = total * f.channels) (hsome : total ≠ 0)
    -- the program
    (orders : Nat → ToolOrder) (ho : ∀ k l, ((orders k).blocks l).Perm l) (fuel : Nat) (e : IamfEncoder lpcmEncoders P FileOutput)
    (h : encodeWavs fileSink linear [⟨i, channels, some f⟩] [] orders fuel e0 = .ok e)
    -- the descriptors that are written in the end
    (m : List (Obu MixPresentation)) (hm : P.finish e.finalizer = .ok m) (hbuilt : BuiltSequence (withMixes s.descriptors m)) (x : Descriptors)
    (hx : SameDescriptors (withMixes s.descriptors m) x) (n : UInt32) (hn : n ≠ 0) (hplay : Playable x n) (e' : ElementWithData)
    (he' : x.elements.lookup i = some e') (c : CodecObu) (pcm : LpcmConfig) (order : List Label) (hp : PlainPcm e' c pcm order) (hpcm : ValidLpcm pcm)
    (hmix : ∀ p ∈ x.mixes, ∀ b ∈ p.subMixes, ∃ a, b.elements = [a] ∧ a.id = i ∧ NoGain a.mixGain c.outputRate ∧ NoGain b.outputMixGain c.outputRate)
    -- the lengths
    (hroom : trimEnd.toNat + channels.length * (total + n.toNat) + n.toNat < 4294967296)
    -- the decoder
    (ds : DecoderSettings) (ha : ds.android = false) (hst : ds.sampleType = 1 ∨ ds.sampleType = 2)
    (p0 : Processor (standardBackend M E C ⟨true, true⟩)) (hi : initAll ds x = .ok p0) (sys r : UInt8) (hlay : p0.layout = ⟨2, .soundSystem sys r⟩)
    (hfit : Fits order (systemPlaces sys)) :
    ∃ file, (e.others.map fun q => q.sink.disk) = [some file] ∧
      (file.length ≤ 4194304 → ∀ (cs : List DecoderCall) (pv : Bool), fedBytes cs = file → EndsLast cs →
        (∀ size, .getOutput size ∈ cs → order.length * n.toNat * (2 * ds.sampleType) ≤ size) →
        ∀ rounds size : Nat, file.length + 2 ≤ rounds → order.length * n.toNat * (2 * ds.sampleType) ≤ size →
        AllOk (decoding (standardBackend M E C ⟨true, true⟩) ds pv (cs ++ finish rounds size)).1 ∧
        DeliveredUnit pcm.sampleSize ds.sampleType order (wavSound content f channels) trimStart.toNat
          (total - trimEnd.toNat - trimStart.toNat)
          (given (decoding (standardBackend M E C ⟨true, true⟩) ds pv (cs ++ finish rounds size)).1).flatten) := by
  obtain ⟨descriptors, units, views, xs, bs, d1, d2, d3, d4, d5, d6, d7, -, d9⟩ := wav_parts M hM E hE C linear content hW s i o trimStart trimEnd includesDelay channels out hs e0 h0 f
    hch total htotal hsome orders ho fuel e h m hm hbuilt x hx n hn hplay e' he' c pcm order hp hpcm hmix hroom ds hst p0 hi sys r hlay hfit
  refine ⟨_, d1, fun hlen cs pv hfed hends hsize rounds size hrounds hsz => ?_⟩
  obtain ⟨r1, r2⟩ := decoded_every_way _ ds ha _ x n views _ d2 s.lebs d3 d4 hlen p0 hi xs d5 bs d6 cs pv hfed hends
    (fun z hz b hb => Nat.le_trans (d7 b hb) (hsize z hz)) rounds size hrounds (fun b hb => Nat.le_trans (d7 b hb) hsz)
  refine ⟨r1, ?_⟩
  rw [r2, flatten_nonempty]
  exact d9

end Iamf.Props
