import Verif.Props.Finalizer
import Verif.Props.WavWriter
/-
  C57: the WAV files that the encoder program writes of the mix presentations that it has measured.
-/
namespace Iamf.Props
open Iamf

variable {Q : Meters} {H : WavHeaders}

private theorem after_snoc_frame (S : PostProcessors) (a : S.State) (ss : List Rendered) (s : Rendered) :
    afterFrames S a (ss ++ [s]) = (S.push (afterFrames S a ss) s).2 := by
  unfold afterFrames
  rw [List.foldl_append]
  rfl

private theorem fed_frames {a b : WavWriter} {ss : List Rendered} (h : Fed (wavFiles H).push a ss b) :
    b = afterFrames (wavFiles H) a ss ∧ ∀ k s, ss[k]? = some s → ((wavFiles H).push (afterFrames (wavFiles H) a (ss.take k)) s).1 = .ok () := by
  induction h with
  | nil => exact ⟨rfl, fun k s hk => (by simp at hk)⟩
  | @snoc b c ss s h1 h2 ih =>
    obtain ⟨i1, i2⟩ := ih
    constructor
    · have hs := after_snoc_frame (wavFiles H) a ss s
      rw [← i1, h2] at hs
      exact hs.symm
    · intro k x hk
      rcases Nat.lt_or_ge k ss.length with hlt | hge
      · rw [List.getElem?_append_left hlt] at hk
        rw [List.take_append_of_le_length hlt.le]
        exact i2 k x hk
      · rw [List.getElem?_append_right hge] at hk
        obtain ⟨hk0, hx⟩ := List.getElem?_eq_some_iff.mp hk
        simp only [List.length_singleton] at hk0
        have hk' : k = ss.length := by omega
        subst hk'
        simp only [Nat.sub_self, List.getElem_cons_zero] at hx
        subst hx
        rw [List.take_left, ← i1, h2]

private theorem pushed_shape {w : WavWriter} {s : Rendered} (h : (w.pushFrame s).1 = .ok ()) : s.length = w.channels ∧ ∃ ticks ≤ w.most, ∀ c ∈ s, c.length = ticks := by
  unfold WavWriter.pushFrame at h
  split at h; · cases h
  split at h; · cases h
  next hlen =>
  split at h; · cases h
  next hall =>
  refine ⟨Decidable.not_not.mp hlen, ?_⟩
  rw [Bool.not_eq_true, List.any_eq_false] at hall
  simp only [decide_eq_true_eq, not_or, Decidable.not_not, not_lt, gt_iff_lt] at hall
  cases s with
  | nil => exact ⟨0, Nat.zero_le _, fun c hc => (by cases hc)⟩
  | cons c s => exact ⟨c.length, (hall c (List.mem_cons_self ..)).2, fun d hd => (hall d hd).1⟩

private theorem kept_format (w : WavWriter) (s : Rendered) : (w.pushFrame s).2.channels = w.channels ∧ (w.pushFrame s).2.most = w.most := by
  unfold WavWriter.pushFrame WavWriter.write
  repeat' split
  all_goals exact ⟨rfl, rfl⟩

private theorem kept_after (w : WavWriter) : ∀ ss : List Rendered, (afterFrames (wavFiles H) w ss).channels = w.channels ∧ (afterFrames (wavFiles H) w ss).most = w.most := by
  intro ss
  induction ss generalizing w with
  | nil => exact ⟨rfl, rfl⟩
  | cons s ss ih =>
    obtain ⟨h1, h2⟩ := ih (w.pushFrame s).2
    obtain ⟨k1, k2⟩ := kept_format w s
    exact ⟨h1.trans k1, h2.trans k2⟩

private theorem created_format {channels most : Nat} {rate : UInt32} {depth : UInt8} {header : Bool} {w : WavWriter}
    (h : (WavWriter.create H channels rate depth most header).1 = some w) : w.channels = channels ∧ w.most = most := by
  unfold WavWriter.create at h
  repeat' split at h
  all_goals first | cases h; done | (cases h; exact ⟨rfl, rfl⟩)

/-- **C57 (a mix as a WAV file).** When an encoder that writes the mix presentations to WAV files is done, the file of a layout that can be rendered has a header with the number of samples and, behind
it, just what the renderer of the layout made of each temporal unit, in order, interleaved and little-endian in the bit depth that the audio elements of the sub-mix have in common. -/
theorem C57_the_mix_as_a_wav_file (hH : HonestHeaders H) {M : GainMath Rat} {E : RenderEnv} {t : TrimmingSettings} {elements : List (UInt32 × ElementWithData)} {obus : List (Obu MixPresentation)}
    {f f1 f2 : Finalizer Q (wavFiles H)} {us : List UnitToRender} (h : NewFinalizer E t elements obus f) (hp : Pushed M f us f1) (hf : f1.finish = (.ok (), f2))
    {o : Obu MixPresentation} (ho : o ∈ obus) {i j : Nat} {l : MixLayout} (hl : layoutAt o.body i j = some l) (hr : SomeLayoutRenders E t Q (wavFiles H) elements o.body) :
    ∃ (x z : MeasuredLayout Q (wavFiles H)), PreparedLayout E t elements o.body i j x ∧
      ((f2.mixes.lookup o.body.id).bind fun subs => subs[i]?.bind fun s => s[j]?) = some z ∧
      ∀ R w, x.renderer = some R → x.post = some w → ∃ R' ss parts s es rate frameSize depth, ∃ n : Int, ∃ w' : WavWriter,
        InCommon elements s es rate frameSize depth ∧ numChannelsFromLayout l.layout = .ok n ∧
        Renderings M R us ss R' ∧ List.Forall₂ (FrameBytes depth.toNat) ss parts ∧ z.post = some w' ∧
        w'.content = some (headerOf H true depth rate n.toNat (parts.flatten.length / (depth.toNat / 8)) ++ parts.flatten) := by
  obtain ⟨x, y, z, h1, h2, h3, h4⟩ := C54_post_processors_are_flushed h hp hf ho hl hr
  refine ⟨x, z, h1, h3, fun R w hR hw => ?_⟩
  obtain ⟨s, l', es, rate, frameSize, depth, q1, q2, q3, -, q4⟩ := h1
  have hll : l' = l := by
    unfold layoutAt at hl
    rw [q1] at hl
    simp only [Option.bind_some] at hl
    rw [q2] at hl
    exact Option.some.inj hl
  subst hll
  rcases q4 with ⟨_, -, q4, -⟩ | ⟨n, q4, -, -, q5⟩
  · rw [q4] at hR; cases hR
  rw [hw] at q5
  rcases h2 with ⟨a1, -⟩ | ⟨R0, R', ss, a1, -, a2, -, a3, -⟩
  · rw [a1] at hR; cases hR
  rw [hR] at a1
  cases a1
  rcases a3 with ⟨b1, -⟩ | ⟨w0, w1, b1, b2, b3⟩
  · rw [b1] at hw; cases hw
  rw [hw] at b1
  cases b1
  rcases h4 with ⟨c1, -⟩ | ⟨c, d, c1, c2, c3⟩
  · rw [b2] at c1; cases c1
  rw [b2] at c1
  cases c1
  obtain ⟨e1, e2⟩ := fed_frames b3
  obtain ⟨parts, g1, -, g2⟩ := C57_files_of_the_encoder hH o.body.id i j l'.layout n frameSize w q5.symm ss
  refine ⟨R', ss, parts, s, es, rate, frameSize, depth, n, d, q3, q4, a2, ?_, c2, ?_⟩
  · obtain ⟨f1', f2'⟩ := created_format (H := H) q5.symm
    rw [List.forall₂_iff_get] at g1 ⊢
    refine ⟨g1.1, fun k hk hk' => ?_⟩
    have hg := g1.2 k hk hk'
    have hpush := e2 k (ss.get ⟨k, hk⟩) (by simp [List.getElem?_eq_getElem hk])
    have hshape := pushed_shape (w := afterFrames (wavFiles H) w (ss.take k)) hpush
    rw [(kept_after (H := H) w _).1, (kept_after (H := H) w _).2, f1', f2'] at hshape
    rw [if_pos hshape] at hg
    exact hg
  · rw [← e1, c3] at g2
    exact g2

end Iamf.Props
