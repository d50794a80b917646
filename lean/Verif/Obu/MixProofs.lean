import Verif.Obu.Mix
/-
  Round trips, safety and stability of mix presentations.
-/
namespace Iamf

/-! ### Combinators -/

/-- A list whose count was written before. -/
theorem RTB.repAs {α β γ : Type} {g : LebGen} {w : α → Wr Unit} {r : Rd β} {nf : α → β} {l : List α}
    {w2 : Wr Unit} {f : List β → Rd γ} {c : γ} {n : UInt32} (hn : UInt32.ofNat l.length = n)
    (h : ∀ a ∈ l, RTB g (w a) r (nf a)) (hlen : ∀ a ∈ l, ∀ bs, (w a).eval g = (.ok (), bs) → 8 ≤ bs.length)
    (h2 : RTB g w2 (f (l.map nf)) c) :
    RTB g ((wAll w l).bind fun _ => w2) ((rRep r n.toNat).bind f) c := by
  intro bs hb hl
  rw [Wr.eval_bind_ok] at hb
  obtain ⟨_, b3, b4, e3, e4, rfl⟩ := hb
  simp only [List.length_append] at hl
  have := wAll_len hlen e3
  have hn' : n.toNat = l.length := by rw [← hn, UInt32.toNat_ofNat']; omega
  rw [hn']
  exact (RTB.repN g w r nf l h b3 e3 (by omega)).bind (h2 b4 e4 (by omega))

theorem len_bind_left {g : LebGen} {w : Wr Unit} {f : Unit → Wr Unit} {k : Nat}
    (h : ∀ bs, w.eval g = (.ok (), bs) → k ≤ bs.length) :
    ∀ bs, (w.bind f).eval g = (.ok (), bs) → k ≤ bs.length := by
  intro bs hb
  rw [Wr.eval_bind_ok] at hb
  obtain ⟨_, b1, b2, e1, e2, rfl⟩ := hb
  have := h b1 e1
  rw [List.length_append]
  omega

theorem wString_len {g : LebGen} {s : List UInt8} {bs : Bits} (h : (wString s).eval g = (.ok (), bs)) : 8 ≤ bs.length := by
  rw [eval_wString] at h
  split at h
  · simp only [Prod.mk.injEq, true_and] at h
    subst h
    simp [bytesBits_length]
    try omega
  · simp at h

theorem RTB.when {α : Type} {g : LebGen} {c : Bool} {w : Wr Unit} {r : Rd α} {a d : α}
    (h : c = true → RTB g w r a) : RTB g (wWhen c w) (rWhen c d r) (if c then a else d) := by
  cases c
  · exact RTB.ret g d
  · exact h rfl

/-- `p` fails with `e` whenever the unread input starts with `bs`. -/
def Fails {α : Type} (p : Rd α) (bs : Bits) (e : Err) : Prop :=
  ∀ s : RS, s.pos ≤ s.src.length → bs <+: s.rest → (p.runA s).1 = .error e

theorem Fails.fail {α : Type} (e : Err) (bs : Bits) : Fails (Rd.fail e : Rd α) bs e := fun _ _ _ => rfl

theorem Fails.bind {α β : Type} {p : Rd α} {f : α → Rd β} {bs : Bits} {e : Err} (h : Fails p bs e) :
    Fails (p.bind f) bs e := by
  intro s hp hs
  have := h s hp hs
  rw [Rd.runA_bind]
  match hx : p.runA s with
  | (.ok a, s') => rw [hx] at this; simp at this
  | (.error e', s') => rw [hx] at this; simpa using this

theorem Reads.thenFails {α β : Type} {p : Rd α} {f : α → Rd β} {b1 b2 : Bits} {a : α} {e : Err}
    (h1 : Reads p b1 a) (h2 : Fails (f a) b2 e) : Fails (p.bind f) (b1 ++ b2) e := by
  intro s hp hs
  obtain ⟨v, f1, -⟩ := h1 s hp ((List.prefix_append _ _).trans hs)
  obtain ⟨hr, hl⟩ := rest_after s b1 b2 hs hp v
  rw [Rd.runA_bind, f1]
  exact h2 _ hl hr

/-! ### Rendering configs -/

/-- Built by the factories. -/
def GainOffset.Made : GainOffset → Prop
  | .value _ => True
  | .range d mn mx => mn.toInt ≤ d.toInt ∧ d.toInt ≤ mx.toInt
  | .extension t _ => t ≠ 0 ∧ t ≠ 1

theorem GainOffset.rt (g : LebGen) (c : GainOffset) (hm : c.Made) : RTB g c.write GainOffset.read c := by
  cases c with
  | value v =>
    unfold GainOffset.write GainOffset.read
    simp only [Wr.bind_eq, Rd.bind_eq, Rd.pure_eq]
    refine (rt_U8_8 g 0).b.seq ?_
    rw [if_pos rfl]
    exact (rt_S16 g v).b.seqR (Reads.ret _)
  | range d mn mx =>
    unfold GainOffset.write GainOffset.read
    simp only [Wr.bind_eq, Rd.bind_eq, Rd.pure_eq]
    refine (rt_U8_8 g 1).b.seq ?_
    rw [if_neg (by decide), if_pos rfl]
    refine (rt_S16 g d).b.seq ((rt_S16 g mn).b.seq ((rt_S16 g mx).b.seqR ?_))
    unfold GainOffset.createRange
    rw [if_pos (show mn.toInt ≤ d.toInt ∧ d.toInt ≤ mx.toInt from hm)]
    exact Reads.ret _
  | extension t bytes =>
    unfold GainOffset.write GainOffset.read
    simp only [Wr.bind_eq, Rd.bind_eq, Rd.pure_eq]
    refine (rt_U8_8 g t).b.seq ?_
    rw [if_neg hm.1, if_neg hm.2]
    refine (RTB.sized g bytes).seqR ?_
    unfold GainOffset.createExtension
    rw [if_neg (fun h => h.elim hm.1 hm.2)]
    exact Reads.ret _

/-- A positional definition whose schedule comes from a factory. -/
def RenderingParam.Made (p : RenderingParam) : Prop := p.definition.Made ∧ p.definition.spec.positional = true

def RenderingParam.normalized (p : RenderingParam) : RenderingParam := ⟨p.definition.normalized, []⟩

theorem RenderingParam.rt (g : LebGen) (p : RenderingParam) (hm : p.Made) :
    RTB g p.write RenderingParam.read p.normalized := by
  unfold RenderingParam.write RenderingParam.read
  simp only [Wr.bind_eq, Rd.bind_eq, Rd.pure_eq]
  refine (rt_Uleb g _).b.seq ?_
  have hp := hm.2
  have ht : p.definition.spec.type = 3 ∨ p.definition.spec.type = 4 ∨ p.definition.spec.type = 5 ∨
      p.definition.spec.type = 6 ∨ p.definition.spec.type = 7 ∨ p.definition.spec.type = 8 := by
    cases hs : p.definition.spec <;> simp [hs, ParamSpecific.positional, ParamSpecific.type] at hp ⊢
  rw [if_pos ht]
  refine (rt_paramDef g p.definition hm.1 ?_).b.seqR (Reads.ret _)
  intro t b hs
  simp [hs, ParamSpecific.positional] at hp

theorem RenderingParam.len {g : LebGen} {p : RenderingParam} : ∀ bs, p.write.eval g = (.ok (), bs) → 8 ≤ bs.length :=
  len_bind_left fun _ h => wUleb_len h

structure RenderingConfig.Made (c : RenderingConfig) : Prop where
  params : ∀ p ∈ c.params, p.Made
  gain : ∀ x, c.gainOffset = some x → x.Made

def RenderingConfig.normalized (c : RenderingConfig) : RenderingConfig :=
  { c with params := c.params.map RenderingParam.normalized }

theorem RenderingConfig.rt_fields (g : LebGen) (c : RenderingConfig) (hm : c.Made) :
    RTB g (wRenderingFields c.params c.gainOffset) (rRenderingFields c.gainOffset.isSome)
      (c.params.map RenderingParam.normalized, c.gainOffset) := by
  unfold wRenderingFields rRenderingFields
  simp only [Wr.bind_eq, Rd.bind_eq, Rd.pure_eq]
  refine RTB.counted (fun p hp => RenderingParam.rt g p (hm.params p hp)) (fun p _ => RenderingParam.len) fun _ => ?_
  cases hg : c.gainOffset with
  | none => exact RTB.ret g _
  | some x => exact (GainOffset.rt g x (hm.gain x hg)).seqR (Reads.ret _)

theorem wRenderingFields_len {g : LebGen} {l : List RenderingParam} {x : Option GainOffset} {bs : Bits}
    (h : (wRenderingFields l x).eval g = (.ok (), bs)) : 8 ≤ bs.length :=
  len_bind_left (fun _ h => wUleb_len h) bs h

theorem RenderingConfig.rt (g : LebGen) (c : RenderingConfig) (hm : c.Made) :
    RTB g c.write RenderingConfig.read c.normalized := by
  unfold RenderingConfig.write RenderingConfig.read
  simp only [Wr.bind_eq, Rd.bind_eq, Rd.pure_eq]
  refine (rt_U8_2 g _).b.seq ((rt_Bool g _).b.seq ((rt_U8_2 g _).b.seq ((rt_U8_3 g _).b.seq ?_)))
  by_cases he : c.params = [] ∧ c.gainOffset = none ∧ c.extensionBytes = []
  · rw [if_pos he]
    have hn : c.normalized = ⟨c.headphonesMode, c.binauralProfile, c.reserved, [], none, []⟩ := by
      obtain ⟨h1, h2, h3⟩ := he
      unfold RenderingConfig.normalized
      rw [h1, h2, h3]; rfl
    refine (rt_Uleb g 0).b.seqR ?_
    rw [if_pos rfl, hn]
    exact Reads.ret _
  · rw [if_neg he]
    intro bs hb hl
    obtain ⟨tmp, htmp, hb⟩ := Wr.sub_bind_ok hb
    obtain ⟨hal, hb⟩ := Wr.check_bind_ok hb
    rw [WBuf.isByteAligned_iff] at hal
    have hev := htmp.eval
    rw [Wr.eval_bind_ok] at hev
    obtain ⟨_, b1, b2, e1, e2, hbits⟩ := hev
    have := wBytes_ok e2
    subst this
    have hoff := htmp.off
    have htight := htmp.wf.tight
    have h8 := wRenderingFields_len e1
    have hl1 : b1.length + 8 * c.extensionBytes.length = tmp.off := by
      rw [← hoff, hbits, List.length_append, bytesBits_length]
    have hlen : tmp.bytes.length = b1.length / 8 + c.extensionBytes.length := by omega
    rw [Wr.eval_bind_ok] at hb
    obtain ⟨_, c1, c2, d1, d2, rfl⟩ := hb
    have := wBytes_ok d2
    subst this
    rw [List.length_append, bytesBits_length] at hl
    have hn : (UInt32.ofNat tmp.bytes.length).toNat = tmp.bytes.length := by rw [UInt32.toNat_ofNat']; omega
    refine (rt_Uleb g _ c1 d1).bind ?_
    have hc : (!decide (UInt32.ofNat tmp.bytes.length > 2097152)) = true := by
      have : ¬ UInt32.ofNat tmp.bytes.length > 2097152 := by
        rw [gt_iff_lt, UInt32.lt_iff_toNat_lt, hn, show (2097152 : UInt32).toNat = 2097152 from rfl]; omega
      rw [decide_eq_false this]; rfl
    have hz : UInt32.ofNat tmp.bytes.length ≠ 0 := by
      intro h0
      have := congrArg UInt32.toNat h0
      rw [hn, show (0 : UInt32).toNat = 0 from rfl] at this
      omega
    rw [hc]
    show Reads ((if UInt32.ofNat tmp.bytes.length = 0 then _ else _ : Rd RenderingConfig)) _ _
    rw [if_neg hz]
    have hx : Reads (rRenderingExtension c.gainOffset.isSome (UInt32.ofNat tmp.bytes.length)) (bytesBits tmp.bytes)
        (c.params.map RenderingParam.normalized, c.gainOffset, c.extensionBytes) := by
      rw [htmp.bytes_of_aligned hal, hbits]
      intro s hp hs
      unfold rRenderingExtension
      rw [hn, hlen]
      simp only [Rd.runA]
      obtain ⟨v1, f1, m1⟩ := RenderingConfig.rt_fields g c hm b1 e1 (by omega) { s with valid := true } hp
        ((List.prefix_append _ _).trans hs)
      rw [f1]
      simp only [Rd.runA]
      obtain ⟨hr2, hl2⟩ := rest_after s b1 (bytesBits c.extensionBytes) hs hp true
      have hq : ((b1.length / 8 + c.extensionBytes.length : Nat) : Int) - (((s.pos + b1.length : Nat) : Int) - (s.pos : Int)) / 8
          = (c.extensionBytes.length : Int) := by omega
      rw [hq, if_neg (by omega), Int.toNat_natCast]
      have hb := (reads_bytes c.extensionBytes).bind
        (f := fun e => Rd.ret (c.params.map RenderingParam.normalized, c.gainOffset, e)) (Reads.ret _)
      rw [List.append_nil] at hb
      obtain ⟨v2, f2, m2⟩ := hb ⟨s.src, s.pos + b1.length, true⟩ hl2 hr2
      refine ⟨v2, ?_, fun _ => m2 rfl⟩
      rw [f2]; simp [Nat.add_assoc]
    have := hx.bind (f := fun x => Rd.ret
      (RenderingConfig.mk c.headphonesMode c.binauralProfile c.reserved x.1 x.2.1 x.2.2)) (Reads.ret _)
    rw [List.append_nil] at this
    exact this

/-! ### Layouts -/

/-- What a reader recovers of the loudness. -/
def LoudnessInfo.normalized (l : LoudnessInfo) : LoudnessInfo :=
  { l with
    truePeak := if l.infoType &&& kTruePeak != 0 then l.truePeak else 0
    anchors := if l.infoType &&& kAnchoredLoudness != 0 then l.anchors else []
    extension := if l.infoType &&& kAnyLayoutExtension != 0 then l.extension else [] }

theorem rt_anchors (g : LebGen) (l : List (UInt8 × Int16)) : RTB g (wAnchors l) rAnchors l := by
  unfold wAnchors rAnchors
  simp only [Wr.bind_eq, Rd.bind_eq, Rd.pure_eq]
  refine RTB.checkW fun h1 => RTB.checkW fun h2 => (rt_U8_8 g _).b.seq ?_
  have hn : (UInt8.ofNat l.length).toNat = l.length := by
    rw [decide_eq_true_iff] at h2
    rw [UInt8.toNat_ofNat']; omega
  rw [hn]
  refine (RTB.rep g wAnchor rAnchor l fun a _ => ?_).seqR ?_
  · unfold wAnchor rAnchor
    refine ((rt_U8_8 g a.1).seq ?_).b
    simp only [Rd.bind_eq, Rd.pure_eq]
    exact (rt_S16 g a.2).seqR (Reads.ret _)
  · rw [h1]; exact Reads.ret _

theorem LoudnessInfo.rt (g : LebGen) (l : LoudnessInfo) : RTB g l.write LoudnessInfo.read l.normalized := by
  unfold LoudnessInfo.write LoudnessInfo.read
  simp only [Wr.bind_eq, Rd.bind_eq, Wr.pure_eq, Rd.pure_eq]
  refine (rt_U8_8 g _).b.seq ((rt_S16 g _).b.seq ((rt_S16 g _).b.seq ?_))
  refine (RTB.when fun _ => (rt_S16 g _).b).seq ?_
  refine (RTB.when fun _ => rt_anchors g _).seq ?_
  refine (RTB.when fun _ => RTB.sized g _).seqR ?_
  exact Reads.ret _

def MixLayout.normalized (l : MixLayout) : MixLayout := ⟨l.layout, l.loudness.normalized⟩

theorem MixLayout.rt (g : LebGen) (l : MixLayout) : RTB g l.write MixLayout.read l.normalized := by
  unfold MixLayout.write MixLayout.read Layout.read
  simp only [Wr.bind_eq, Rd.bind_eq, Wr.pure_eq, Rd.pure_eq, Rd.bind_assoc]
  refine (rt_U8_2 g _).b.seq ?_
  obtain ⟨⟨t, sp⟩, lo⟩ := l
  simp only
  cases sp with
  | soundSystem s r =>
    unfold SpecificLayout.write
    simp only
    by_cases h : t = 2
    · rw [if_pos h, if_pos h]
      simp only [Wr.bind_eq, Rd.bind_assoc, Rd.ret_bind]
      intro bs hb hl
      rw [Wr.eval_bind_ok] at hb
      obtain ⟨_, b1, b2, e1, e2, rfl⟩ := hb
      rw [List.length_append] at hl
      rw [Wr.eval_bind_ok] at e1
      obtain ⟨_, b3, b4, e3, e4, rfl⟩ := e1
      rw [List.append_assoc]
      refine (rt_U8_4 g s b3 e3).bind ((rt_U8_2 g r b4 e4).bind ?_)
      have := (LoudnessInfo.rt g lo b2 e2 (by omega)).bind (f := fun i => Rd.ret (MixLayout.mk ⟨t, .soundSystem s r⟩ i))
        (Reads.ret _)
      rw [List.append_nil] at this
      exact this
    · rw [if_neg h]
      exact RTB.failBind
  | other r =>
    unfold SpecificLayout.write
    simp only
    by_cases h : t = 2
    · rw [if_pos h]
      exact RTB.failBind
    · rw [if_neg h, if_neg h]
      simp only [Wr.bind_eq, Rd.bind_assoc, Rd.ret_bind]
      refine (rt_U8_6 g r).b.seq ((LoudnessInfo.rt g lo).seqR (Reads.ret _))

theorem MixLayout.len {g : LebGen} {l : MixLayout} : ∀ bs, l.write.eval g = (.ok (), bs) → 8 ≤ bs.length := by
  intro bs h
  unfold MixLayout.write at h
  simp only [Wr.bind_eq] at h
  rw [Wr.eval_bind_ok] at h
  obtain ⟨_, b1, b2, e1, h, rfl⟩ := h
  rw [Wr.eval_bind_ok] at h
  obtain ⟨_, b3, b4, e3, h, rfl⟩ := h
  have : 8 ≤ b4.length := by
    refine len_bind_left (g := g) (w := wU8 l.loudness.infoType 8) (fun bs hb => ?_) b4 h
    rw [eval_wU8_8] at hb
    simp only [Prod.mk.injEq, true_and] at hb
    subst hb
    simp [byteBits_length]
  simp only [List.length_append]
  omega

/-! ### Sub-mixes -/

structure SubMixElement.Made (e : SubMixElement) : Prop where
  rendering : e.rendering.Made
  gain : e.mixGain.Made
  isGain : ∃ d, e.mixGain.spec = .mixGain d

def SubMixElement.normalized (e : SubMixElement) : SubMixElement := { e with rendering := e.rendering.normalized }

theorem rt_mixGainDef (g : LebGen) (p : ParamDef) (hm : p.Made) (hs : ∃ d, p.spec = .mixGain d) :
    RT g p.write (rParamDef 0) p := by
  obtain ⟨d, hd⟩ := hs
  have := rt_paramDef g p hm (by intro t b h; rw [hd] at h; simp at h)
  have e1 : p.spec.type = 0 := by rw [hd]; rfl
  have e2 : p.normalized = p := by
    obtain ⟨b, s⟩ := p
    simp only at hd
    subst hd; rfl
  rw [e1, e2] at this
  exact this

theorem SubMixElement.rt (g : LebGen) (n : UInt32) (e : SubMixElement) (hm : e.Made) :
    RTB g (e.write n) (SubMixElement.read n) e.normalized := by
  unfold SubMixElement.write SubMixElement.read
  simp only [Wr.bind_eq, Rd.bind_eq, Rd.pure_eq]
  refine (rt_Uleb g _).b.seq (RTB.checkW fun hc => ?_)
  rw [beq_iff_eq] at hc
  refine RTB.repAs (nf := _root_.id) hc (fun s _ => (rt_String g s).b) (fun s _ bs h => wString_len h) ?_
  rw [List.map_id]
  exact (RenderingConfig.rt g _ hm.rendering).seq ((rt_mixGainDef g _ hm.gain hm.isGain).b.seqR (Reads.ret _))

theorem SubMixElement.len {g : LebGen} {n : UInt32} {e : SubMixElement} :
    ∀ bs, (e.write n).eval g = (.ok (), bs) → 8 ≤ bs.length := len_bind_left fun _ h => wUleb_len h

structure SubMix.Made (s : SubMix) : Prop where
  elements : ∀ e ∈ s.elements, e.Made
  gain : s.outputMixGain.Made
  isGain : ∃ d, s.outputMixGain.spec = .mixGain d

def SubMix.normalized (s : SubMix) : SubMix :=
  ⟨s.elements.map SubMixElement.normalized, s.outputMixGain, s.layouts.map MixLayout.normalized⟩

theorem hasStereo_normalized (l : List MixLayout) : hasStereoLayout (l.map MixLayout.normalized) = hasStereoLayout l := by
  unfold hasStereoLayout
  rw [List.any_map]
  rfl

theorem SubMix.rt (g : LebGen) (n : UInt32) (s : SubMix) (hm : s.Made) :
    RTB g (s.write n) (SubMix.read n) s.normalized := by
  unfold SubMix.write SubMix.read
  simp only [Wr.bind_eq, Rd.bind_eq, Rd.pure_eq]
  refine RTB.checkW fun hz => ?_
  refine RTB.countedC (nf := SubMixElement.normalized) (chk := fun k => k != 0) (fun _ => hz)
    (fun e he => SubMixElement.rt g n e (hm.elements e he)) (fun e _ => SubMixElement.len) fun _ => ?_
  refine (rt_mixGainDef g _ hm.gain hm.isGain).b.seq ?_
  refine RTB.counted (nf := MixLayout.normalized) (fun l _ => MixLayout.rt g l) (fun l _ => MixLayout.len) fun _ => ?_
  intro bs hb _
  unfold Wr.check at hb
  split at hb
  next hst =>
    simp only [Wr.eval, Wr.runA, Prod.mk.injEq, true_and] at hb
    subst hb
    have : withStereoLayout (s.layouts.map MixLayout.normalized) = s.layouts.map MixLayout.normalized := by
      unfold withStereoLayout
      rw [hasStereo_normalized, if_pos hst]
    rw [this]
    exact Reads.ret _
  · simp at hb

theorem SubMix.len {g : LebGen} {n : UInt32} {s : SubMix} :
    ∀ bs, (s.write n).eval g = (.ok (), bs) → 8 ≤ bs.length := by
  intro bs h
  unfold SubMix.write at h
  simp only [Wr.bind_eq] at h
  obtain ⟨_, h⟩ := Wr.check_bind_ok h
  exact len_bind_left (fun _ h => wUleb_len h) bs h

/-! ### Tags and optional fields -/

theorem rt_mixTags (g : LebGen) (l : List (List UInt8 × List UInt8)) : RTB g (wMixTags l) rMixTags l := by
  intro bs hb hl
  unfold wMixTags at hb
  simp only [Wr.bind_eq] at hb
  obtain ⟨h1, hb1⟩ := Wr.check_bind_ok hb
  rw [decide_eq_true_iff] at h1
  rw [Wr.eval_bind_ok] at hb1
  obtain ⟨_, b1, b2, e1, hb2, rfl⟩ := hb1
  rw [Wr.eval_bind_ok] at hb2
  obtain ⟨_, b3, b4, e3, e4, rfl⟩ := hb2
  have hn : (UInt8.ofNat l.length).toNat = l.length := by rw [UInt8.toNat_ofNat']; omega
  have h4 : b4 = [] := by
    unfold Wr.check at e4
    split at e4
    · simp only [Wr.eval, Wr.runA, Prod.mk.injEq, true_and] at e4
      exact e4.symm
    · simp at e4
  subst h4
  rw [List.append_nil]
  unfold rMixTags
  simp only [Rd.bind_eq]
  refine (rt_U8_8 g _ b1 e1).bind ?_
  rw [hn]
  simp only [List.length_append, List.append_nil] at hl
  refine RTB.rep g wMixTag rTag l (fun t _ => ?_) b3 e3 (by omega)
  unfold wMixTag
  exact RTB.checkW fun _ => (rt_tag g t).b

theorem wMixTags_len {g : LebGen} {l : List (List UInt8 × List UInt8)} {bs : Bits}
    (h : (wMixTags l).eval g = (.ok (), bs)) : 8 ≤ bs.length := by
  unfold wMixTags at h
  simp only [Wr.bind_eq] at h
  obtain ⟨_, h⟩ := Wr.check_bind_ok h
  refine len_bind_left (fun bs hb => ?_) bs h
  rw [eval_wU8_8] at hb
  simp only [Prod.mk.injEq, true_and] at hb
  subst hb
  simp [byteBits_length]

theorem MixOptionalFields.rt (g : LebGen) (o : MixOptionalFields) : RTB g o.write MixOptionalFields.read o := by
  intro bs hb hl
  unfold MixOptionalFields.write at hb
  simp only [Wr.bind_eq] at hb
  rw [Wr.eval_bind_ok] at hb
  obtain ⟨_, b1, b2, e1, hb, rfl⟩ := hb
  rw [Wr.eval_bind_ok] at hb
  obtain ⟨_, b3, b4, e3, hb, rfl⟩ := hb
  rw [Wr.eval_bind_ok] at hb
  obtain ⟨_, b5, b6, e5, hb, rfl⟩ := hb
  obtain ⟨hc, hb⟩ := Wr.check_bind_ok hb
  have := wBytes_ok hb
  subst this
  simp only [List.length_append, bytesBits_length] at hl
  rw [beq_iff_eq] at hc
  have hs := congrArg UInt64.toNat hc
  rw [UInt64.toNat_ofNat', UInt64.toNat_sub, UInt32.toNat_toUInt64, show (2 : UInt64).toNat = 2 from rfl] at hs
  have hlt := o.size.toNat_lt
  have hsz : o.size.toNat = o.remaining.length + 2 := by omega
  unfold MixOptionalFields.read
  simp only [Rd.bind_eq, Rd.pure_eq]
  refine (rt_Uleb g _ b1 e1).bind ?_
  have hr : inRange32 o.size 2 2097152 = true := by
    unfold inRange32
    rw [Bool.and_eq_true, decide_eq_true_iff, decide_eq_true_iff, UInt32.le_iff_toNat_le, UInt32.le_iff_toNat_le,
      show (2 : UInt32).toNat = 2 from rfl, show (2097152 : UInt32).toNat = 2097152 from rfl]
    constructor
    · omega
    · have h1 := wUleb_len e1
      rw [eval_wU8_8] at e3 e5
      simp only [Prod.mk.injEq, true_and] at e3 e5
      have h3 : b3.length = 8 := by rw [← e3, byteBits_length]
      have h5 : b5.length = 8 := by rw [← e5, byteBits_length]
      omega
  rw [hr]
  refine (rt_U8_8 g _ b3 e3).bind ((rt_U8_8 g _ b5 e5).bind ?_)
  rw [hsz, Nat.add_sub_cancel]
  have := (reads_bytes o.remaining).bind
    (f := fun e => Rd.ret (MixOptionalFields.mk o.size o.loudspeakerRenderer o.binauralRenderer e)) (Reads.ret _)
  rw [List.append_nil] at this
  exact this

/-! ### Mix presentations -/

/-- The limits of the reader that the writer does not enforce, and factories for everything that has one. -/
structure MixPresentation.Made (m : MixPresentation) : Prop where
  labels : m.countLabel ≤ 256
  subMixes : m.subMixes.length ≤ 28
  made : ∀ s ∈ m.subMixes, s.Made

def MixPresentation.normalized (flag : Bool) (m : MixPresentation) : MixPresentation :=
  { m with
    subMixes := m.subMixes.map SubMix.normalized
    optionalFields := if flag then m.optionalFields else none }

theorem ids_normalized (l : List SubMix) : subMixElementIds (l.map SubMix.normalized) = subMixElementIds l := by
  unfold subMixElementIds
  rw [List.flatMap_map]
  congr 1
  funext s
  simp only [SubMix.normalized, List.map_map]
  rfl

theorem rt_mixMain (g : LebGen) (m : MixPresentation) (hm : m.Made) :
    RTB g m.writeMain rMixMain
      ⟨m.id, m.countLabel, m.languages, m.annotations, m.subMixes.map SubMix.normalized, none, none⟩ := by
  unfold MixPresentation.writeMain rMixMain
  simp only [Wr.bind_eq, Rd.bind_eq, Rd.pure_eq]
  refine (rt_Uleb g _).b.seq ((rt_Uleb g _).b.seq ?_)
  refine RTB.checkW fun hu => RTB.checkW fun hc1 => ?_
  rw [beq_iff_eq] at hc1
  refine RTB.checkR ?_ ?_
  · have := hm.labels
    rw [Bool.not_eq_true', decide_eq_false_iff_not, gt_iff_lt, UInt32.not_lt]; exact this
  refine RTB.repAs (nf := _root_.id) hc1 (fun s _ => (rt_String g s).b) (fun s _ bs h => wString_len h) ?_
  rw [List.map_id]
  refine RTB.checkR hu (RTB.checkW fun hc2 => ?_)
  rw [beq_iff_eq] at hc2
  refine RTB.repAs (nf := _root_.id) hc2 (fun s _ => (rt_String g s).b) (fun s _ bs h => wString_len h) ?_
  rw [List.map_id]
  have hn : (UInt32.ofNat m.subMixes.length).toNat = m.subMixes.length := by
    have := hm.subMixes
    rw [UInt32.toNat_ofNat']; omega
  refine (rt_Uleb g _).b.seq (RTB.checkR ?_ (RTB.checkW fun hz => RTB.checkW fun hids => ?_))
  · have := hm.subMixes
    rw [Bool.not_eq_true', decide_eq_false_iff_not, gt_iff_lt, UInt32.lt_iff_toNat_lt, hn,
      show (28 : UInt32).toNat = 28 from rfl]; omega
  rw [hn]
  refine (RTB.repN g _ _ SubMix.normalized _ fun s hs => SubMix.rt g _ s (hm.made s hs)).seqR ?_
  rw [hz, ids_normalized, hids]
  exact Reads.ret _

theorem MixPresentation.rt (g : LebGen) (flag : Bool) (m : MixPresentation) (footer : List UInt8) (hm : m.Made)
    (hf : m.tags = none → footer = []) :
    RTPayload g (m.write flag) (MixPresentation.read flag) footer (m.normalized flag) := by
  intro bs hb hal hl
  unfold MixPresentation.write at hb
  simp only [Wr.bind_eq] at hb
  rw [Wr.eval_bind_ok] at hb
  obtain ⟨_, b1, b2, e1, e2, rfl⟩ := hb
  rw [List.length_append] at hl hal
  have h1 := rt_mixMain g m hm b1 e1 (by omega)
  intro s hp hs
  unfold MixPresentation.read
  simp only [Rd.runA]
  rw [Rd.runA_bind]
  obtain ⟨v1, f1, m1⟩ := h1 { s with valid := true } hp ((List.prefix_append _ _).trans hs)
  rw [f1]
  simp only [Rd.runA]
  rw [if_neg (by omega)]
  obtain ⟨hr2, hl2⟩ := rest_after s b1 b2 hs hp true
  have hq : (((s.pos + b1.length : Nat) : Int) - (s.pos : Int)) / 8 = ((b1.length / 8 : Nat) : Int) := by omega
  rw [hq]
  unfold MixPresentation.writeRest at e2
  simp only [Wr.bind_eq, Wr.pure_eq] at e2
  rw [Wr.eval_bind_ok] at e2
  obtain ⟨_, b3, b4, e3, e4, rfl⟩ := e2
  obtain ⟨id, cl, la, an, sm, tags, opt⟩ := m
  cases tags with
  | none =>
    simp only [wMixTagsOption, Wr.eval, Wr.runA, Prod.mk.injEq, true_and] at e3
    subst e3
    simp only at hf
    have := hf trivial
    subst this
    cases flag with
    | true =>
      simp only [wWhen, wMixOptional, ↓reduceIte, Option.isSome_none, Wr.bind_eq] at e4
      obtain ⟨h, _⟩ := Wr.check_bind_ok e4
      simp at h
    | false =>
      simp only [wWhen, Bool.false_eq_true, ↓reduceIte, Wr.eval, Wr.runA, Prod.mk.injEq, true_and] at e4
      subst e4
      rw [if_pos (by simp)]
      simp only [Bool.false_eq_true, ↓reduceIte]
      exact ⟨true, by simp [MixPresentation.normalized, Rd.runA], fun _ => rfl⟩
  | some t =>
    have h3 := wMixTags_len e3
    rw [List.length_append] at hl hal
    rw [if_neg (by simp only [List.length_append]; omega)]
    have hrest : Reads (rMixRest flag ⟨id, cl, la, an, sm.map SubMix.normalized, none, none⟩) (b3 ++ b4)
        (MixPresentation.normalized flag ⟨id, cl, la, an, sm, some t, opt⟩) := by
      unfold rMixRest
      simp only [Rd.bind_eq, Rd.pure_eq]
      refine (rt_mixTags g t b3 e3 (by omega)).bind ?_
      cases flag with
      | true =>
        simp only [wWhen, wMixOptional, ↓reduceIte, Option.isSome_some, Wr.bind_eq] at e4 ⊢
        obtain ⟨_, e4⟩ := Wr.check_bind_ok e4
        cases opt with
        | none => simp [Wr.check] at e4
        | some o =>
          have := (MixOptionalFields.rt g o b4 e4 (by omega)).bind
            (f := fun o => Rd.ret (MixPresentation.mk id cl la an (sm.map SubMix.normalized) (some t) (some o))) (Reads.ret _)
          rw [List.append_nil] at this
          exact this
      | false =>
        simp only [wWhen, Bool.false_eq_true, ↓reduceIte, Wr.eval, Wr.runA, Prod.mk.injEq, true_and] at e4 ⊢
        subst e4
        exact Reads.ret _
    obtain ⟨v2, f2, m2⟩ := hrest ⟨s.src, s.pos + b1.length, true⟩ hl2 hr2
    refine ⟨v2, ?_, fun _ => m2 rfl⟩
    rw [f2]; simp [Nat.add_assoc]

/-- A list whose count was written before, read in full. -/
theorem reads_repAs {α β : Type} {g : LebGen} {w : α → Wr Unit} {r : Rd β} {nf : α → β} {l : List α} {n : UInt32}
    {bs : Bits} (hn : UInt32.ofNat l.length = n) (h : ∀ a ∈ l, RTB g (w a) r (nf a))
    (hlen : ∀ a ∈ l, ∀ bs, (w a).eval g = (.ok (), bs) → 8 ≤ bs.length) (hb : (wAll w l).eval g = (.ok (), bs))
    (hl : bs.length ≤ 8 * 2097152) : Reads (rRep r n.toNat) bs (l.map nf) := by
  have := wAll_len hlen hb
  have hn' : n.toNat = l.length := by rw [← hn, UInt32.toNat_ofNat']; omega
  rw [hn']
  exact RTB.repN g w r nf l h bs hb hl

/-- The limits of the reader: more than 256 labels or more than 28 sub-mixes are rejected. -/
theorem MixPresentation.unreadable (g : LebGen) (flag : Bool) (m : MixPresentation) (bs : Bits) (n : Int)
    (hb : (m.write flag).eval g = (.ok (), bs)) (hl : bs.length ≤ 8 * 2097152)
    (hx : 256 < m.countLabel ∨ 28 < m.subMixes.length) : Fails (MixPresentation.read flag n) bs .invalidArgument := by
  unfold MixPresentation.write at hb
  simp only [Wr.bind_eq] at hb
  rw [Wr.eval_bind_ok] at hb
  obtain ⟨_, d1, d2, hb0, -, rfl⟩ := hb
  have hmain : Fails rMixMain (d1 ++ d2) .invalidArgument := by
    unfold MixPresentation.writeMain at hb0
    simp only [Wr.bind_eq] at hb0
    rw [Wr.eval_bind_ok] at hb0
    obtain ⟨_, b1, c1, e1, hb1, rfl⟩ := hb0
    rw [Wr.eval_bind_ok] at hb1
    obtain ⟨_, b2, c2, e2, hb2, rfl⟩ := hb1
    unfold rMixMain
    simp only [Rd.bind_eq, Rd.pure_eq, List.append_assoc]
    refine (rt_Uleb g _ b1 e1).thenFails ((rt_Uleb g _ b2 e2).thenFails ?_)
    by_cases hc : 256 < m.countLabel
    · have : (!decide (m.countLabel > 256)) = false := by simp [hc]
      rw [this]
      exact Fails.fail _ _
    · have : (!decide (m.countLabel > 256)) = true := by simpa using hc
      rw [this]
      obtain ⟨hu, hb3⟩ := Wr.check_bind_ok hb2
      obtain ⟨hc1, hb4⟩ := Wr.check_bind_ok hb3
      rw [Wr.eval_bind_ok] at hb4
      obtain ⟨_, b5, c5, e5, hb5, rfl⟩ := hb4
      obtain ⟨hc2, hb6⟩ := Wr.check_bind_ok hb5
      rw [Wr.eval_bind_ok] at hb6
      obtain ⟨_, b6, c6, e6, hb7, rfl⟩ := hb6
      rw [Wr.eval_bind_ok] at hb7
      obtain ⟨_, b7, c7, e7, hb8, rfl⟩ := hb7
      obtain ⟨hz, hb9⟩ := Wr.check_bind_ok hb8
      obtain ⟨hi, hb10⟩ := Wr.check_bind_ok hb9
      rw [beq_iff_eq] at hc1 hc2
      simp only [List.length_append] at hl
      have h1 := reads_repAs (nf := _root_.id) hc1 (fun s _ => (rt_String g s).b) (fun s _ bs h => wString_len h) e5 (by omega)
      have h2 := reads_repAs (nf := _root_.id) hc2 (fun s _ => (rt_String g s).b) (fun s _ bs h => wString_len h) e6 (by omega)
      rw [List.map_id] at h1 h2
      have h3 := wAll_len (fun s _ => SubMix.len) hb10
      have hn : (UInt32.ofNat m.subMixes.length).toNat = m.subMixes.length := by rw [UInt32.toNat_ofNat']; omega
      have hx' : 28 < m.subMixes.length := hx.resolve_left hc
      simp only [List.append_assoc]
      refine h1.thenFails ?_
      rw [hu]
      refine h2.thenFails ((rt_Uleb g _ b7 e7).thenFails ?_)
      have : (!decide (UInt32.ofNat m.subMixes.length > 28)) = false := by
        rw [Bool.not_eq_false', decide_eq_true_iff, gt_iff_lt, UInt32.lt_iff_toNat_lt, hn]
        exact hx'
      rw [this]
      exact Fails.fail _ _
  intro s hp hs
  exact (hmain.bind (f := _)) { s with valid := true } hp hs

/-! ### Safety -/

theorem GainOffset.sf : Sf GainOffset.read GainOffset.Made := by
  unfold GainOffset.read
  simp only [Rd.bind_eq, Rd.pure_eq]
  refine (Sf.u8 8).bind fun t _ => Sf.ite (fun _ => Sf.s16.bind fun v _ => Sf.ret trivial) (fun h0 => ?_)
  refine Sf.ite (fun _ => ?_) (fun h1 => ?_)
  · refine Sf.s16.bind fun d _ => Sf.s16.bind fun mn _ => Sf.s16.bind fun mx _ => ?_
    unfold GainOffset.createRange
    split
    next h => exact Sf.ret h
    · exact Sf.fail rfl
  · refine sf_sized.bind fun b _ => ?_
    unfold GainOffset.createExtension
    split
    · exact Sf.fail rfl
    · exact Sf.ret ⟨h0, h1⟩

theorem rParamSpecific_positional (t : UInt32) (ht : t = 3 ∨ t = 4 ∨ t = 5 ∨ t = 6 ∨ t = 7 ∨ t = 8) :
    Sf (rParamSpecific t) (fun s => s.positional = true) := by
  rcases ht with rfl | rfl | rfl | rfl | rfl | rfl <;>
  · unfold rParamSpecific rPolar
    repeat (first | rw [if_neg (by decide)] | rw [if_pos (by decide)])
    simp only [Rd.bind_eq, Rd.pure_eq]
    repeat first
      | exact Sf.ret rfl
      | (refine Sf.bindT (by sf_auto) ?_; intro _)

theorem RenderingParam.sf : Sf RenderingParam.read RenderingParam.Made := by
  unfold RenderingParam.read
  simp only [Rd.bind_eq, Rd.pure_eq]
  refine Sf.uleb.bind fun t _ => Sf.ite (fun ht => ?_) (fun _ => ?_)
  · unfold rParamDef
    simp only [Rd.bind_eq, Rd.pure_eq, Rd.bind_assoc]
    exact (sf_paramBase t).bind fun b hb => (rParamSpecific_positional t ht).bind fun s hs => Sf.ret ⟨hb, hs⟩
  · exact Sf.uleb.bind fun n _ => Sf.tell fun p => Sf.seek (Sf.fail rfl)

theorem sf_renderingFields (flag : Bool) :
    Sf (rRenderingFields flag) (fun x => (∀ p ∈ x.1, p.Made) ∧ ∀ y, x.2 = some y → y.Made) := by
  unfold rRenderingFields
  simp only [Rd.bind_eq, Rd.pure_eq]
  refine Sf.uleb.bind fun n _ => (Sf.rep RenderingParam.sf _).bind fun ps hps => ?_
  refine Sf.ite (fun _ => GainOffset.sf.bind fun x hx => Sf.ret ⟨hps.2, ?_⟩) (fun _ => Sf.ret ⟨hps.2, by simp⟩)
  intro y hy
  simp only [Option.some.injEq] at hy
  subst hy; exact hx

theorem RenderingConfig.sf : Sf RenderingConfig.read RenderingConfig.Made := by
  unfold RenderingConfig.read rRenderingExtension
  simp only [Rd.bind_eq, Rd.pure_eq]
  refine (Sf.u8 2).bind fun m _ => Sf.bool.bind fun f _ => (Sf.u8 2).bind fun b _ => (Sf.u8 3).bind fun r _ => ?_
  refine Sf.uleb.bind fun n _ => (Sf.check rfl).bind fun _ _ => Sf.ite (fun _ => Sf.ret ⟨by simp, by simp⟩) (fun _ => ?_)
  refine Sf.bind (Q := fun x => (∀ p ∈ x.1, p.Made) ∧ ∀ y, x.2.1 = some y → y.Made) ?_ fun x hx => Sf.ret ⟨hx.1, hx.2⟩
  refine Sf.tell fun p => Sf.attempt (sf_renderingFields f) (fun x hx => ?_) (fun e _ => ?_)
  · refine Sf.tell fun p1 => ?_
    split
    · exact Sf.fail rfl
    · exact (Sf.bytes _).bind fun e _ => Sf.ret hx
  · exact Sf.seek ((Sf.bytes _).bind fun e _ => Sf.ret ⟨by simp, by simp⟩)

theorem rWhen_sf {α : Type} {c : Bool} {d : α} {r : Rd α} (h : Sf r (fun _ => True)) : Sf (rWhen c d r) (fun _ => True) := by
  unfold rWhen; split
  · exact h
  · exact Sf.retT _

theorem MixLayout.sf : Sf MixLayout.read (fun l => l.layout.type.toNat < 4 ∧
    (l.layout.type = 2 ↔ ∃ s r, l.layout.specific = .soundSystem s r)) := by
  unfold MixLayout.read Layout.read LoudnessInfo.read rAnchors rAnchor
  simp only [Rd.bind_eq, Rd.pure_eq]
  refine Sf.bind (Q := fun l => l.type.toNat < 4 ∧ (l.type = 2 ↔ ∃ s r, l.specific = .soundSystem s r)) ?_ fun l hl => ?_
  · refine (Sf.u8 2).bind fun t ht => Sf.ite (fun h => ?_) (fun h => ?_)
    · exact (Sf.u8 4).bind fun s _ => (Sf.u8 2).bind fun r _ => Sf.ret ⟨ht, by simp [h]⟩
    · exact (Sf.u8 6).bind fun r _ => Sf.ret ⟨ht, by simp [h]⟩
  · refine Sf.bindT (α := LoudnessInfo) ?_ fun i => Sf.ret hl
    refine Sf.bindT (by sf_auto) fun _ => Sf.bindT (by sf_auto) fun _ => Sf.bindT (by sf_auto) fun _ => ?_
    refine Sf.bindT (rWhen_sf (by sf_auto)) fun _ => Sf.bindT (rWhen_sf (by sf_auto)) fun _ => ?_
    exact Sf.bindT (rWhen_sf (Sf.any sf_sized)) fun _ => Sf.retT _

theorem hasStereo_with (l : List MixLayout) : hasStereoLayout (withStereoLayout l) = true := by
  unfold withStereoLayout
  split
  · assumption
  · unfold hasStereoLayout
    rw [List.any_append]
    simp

theorem sf_mixGain : Sf (rParamDef 0) (fun p => p.Made ∧ ∃ d, p.spec = .mixGain d) := by
  unfold rParamDef
  refine (sf_paramBase 0).bind fun b hb => ?_
  refine Sf.bind (Q := fun s => ∃ d, s = ParamSpecific.mixGain d) ?_ fun s hs => Sf.ret ⟨hb, hs⟩
  unfold rParamSpecific
  rw [if_pos (by decide)]
  simp only [Rd.bind_eq, Rd.pure_eq]
  exact Sf.s16.bind fun d _ => Sf.ret ⟨d, rfl⟩

theorem SubMixElement.sf (n : UInt32) :
    Sf (SubMixElement.read n) (fun e => e.Made ∧ e.annotations.length = n.toNat) := by
  unfold SubMixElement.read
  simp only [Rd.bind_eq, Rd.pure_eq]
  refine Sf.uleb.bind fun id _ => (Sf.rep Sf.string _).bind fun a ha => RenderingConfig.sf.bind fun r hr => ?_
  exact sf_mixGain.bind fun m hm => Sf.ret ⟨⟨hr, hm.1, hm.2⟩, ha.1⟩

/-- What every sub-mix from a reader satisfies. -/
structure SubMix.Read (n : UInt32) (s : SubMix) : Prop where
  made : s.Made
  nonempty : s.elements ≠ []
  labels : ∀ e ∈ s.elements, e.annotations.length = n.toNat
  stereo : hasStereoLayout s.layouts = true
  layouts : ∀ l ∈ s.layouts, l.layout.type.toNat < 4 ∧ (l.layout.type = 2 ↔ ∃ s r, l.layout.specific = .soundSystem s r)

theorem SubMix.sf (n : UInt32) : Sf (SubMix.read n) (SubMix.Read n) := by
  unfold SubMix.read
  simp only [Rd.bind_eq, Rd.pure_eq]
  refine Sf.uleb.bind fun k _ => (Sf.check rfl).bind fun _ hk => (Sf.rep (SubMixElement.sf n) _).bind fun es hes => ?_
  refine sf_mixGain.bind fun g hg => Sf.uleb.bind fun j _ => (Sf.rep MixLayout.sf _).bind fun ls hls => Sf.ret ?_
  refine ⟨⟨fun e he => (hes.2 e he).1, hg.1, hg.2⟩, ?_, fun e he => (hes.2 e he).2, hasStereo_with ls, ?_⟩
  · intro h0
    simp only at h0
    have := hes.1
    rw [h0, List.length_nil] at this
    have h1 : k = 0 := by
      rw [← UInt32.toNat_inj]; exact this.symm
    rw [h1] at hk
    simp at hk
  · intro l hl
    simp only at hl
    unfold withStereoLayout at hl
    split at hl
    · exact hls.2 l hl
    · rw [List.mem_append] at hl
      rcases hl with hl | hl
      · exact hls.2 l hl
      · simp only [List.mem_singleton] at hl
        subst hl
        exact ⟨by show (2 : UInt8).toNat < 4; decide, by simp⟩

/-- What every mix presentation from a reader satisfies. -/
structure MixPresentation.Read (flag : Bool) (m : MixPresentation) : Prop where
  made : m.Made
  nonempty : m.subMixes ≠ []
  languages : m.languages.Nodup ∧ m.languages.length = m.countLabel.toNat
  annotations : m.annotations.length = m.countLabel.toNat
  ids : (subMixElementIds m.subMixes).Nodup
  subs : ∀ s ∈ m.subMixes, SubMix.Read m.countLabel s
  optional : flag = true → m.tags.isSome = true ∧ m.optionalFields.isSome = true

theorem sf_mixMain : Sf rMixMain (MixPresentation.Read false) := by
  unfold rMixMain
  simp only [Rd.bind_eq, Rd.pure_eq]
  refine Sf.uleb.bind fun id _ => Sf.uleb.bind fun c _ => (Sf.check rfl).bind fun _ hc => ?_
  refine (Sf.rep Sf.string _).bind fun ls hls => (Sf.check rfl).bind fun _ hu => ?_
  refine (Sf.rep Sf.string _).bind fun as has => Sf.uleb.bind fun n _ => (Sf.check rfl).bind fun _ hn => ?_
  refine (Sf.rep (SubMix.sf c) _).bind fun ss hss => (Sf.check rfl).bind fun _ hz => (Sf.check rfl).bind fun _ hids => ?_
  rw [decide_eq_true_iff] at hu hids
  rw [Bool.not_eq_true', decide_eq_false_iff_not, gt_iff_lt, UInt32.not_lt] at hc hn
  refine Sf.ret ⟨⟨hc, ?_, fun s hs => (hss.2 s hs).made⟩, ?_, ⟨hu, hls.1⟩, has.1, hids, hss.2, by simp⟩
  · simp only
    rw [hss.1]
    rw [UInt32.le_iff_toNat_le] at hn
    exact hn
  · intro h0
    simp only at h0
    have := hss.1
    rw [h0, List.length_nil] at this
    have h1 : n = 0 := by
      rw [← UInt32.toNat_inj]; exact this.symm
    rw [h1] at hz
    simp at hz

theorem MixPresentation.sf (flag : Bool) (n : Int) : Sf (MixPresentation.read flag n) (MixPresentation.Read flag) := by
  unfold MixPresentation.read rMixRest rMixTags MixOptionalFields.read rTag
  simp only [Rd.bind_eq, Rd.pure_eq]
  refine Sf.tell fun p => sf_mixMain.bind fun m hm => Sf.tell fun p1 => ?_
  refine Sf.ite (fun _ => Sf.fail rfl) (fun _ => Sf.ite (fun _ => ?_) (fun _ => ?_))
  · cases flag
    · exact Sf.ret hm
    · exact Sf.fail rfl
  · refine Sf.bindT (by sf_auto) fun t => ?_
    cases flag
    · exact Sf.ret ⟨hm.made.1 |> fun h => ⟨h, hm.made.2, hm.made.3⟩, hm.nonempty, hm.languages, hm.annotations, hm.ids, hm.subs, by simp⟩
    · refine Sf.bindT (α := MixOptionalFields) (by sf_auto) fun o => Sf.ret ?_
      exact ⟨⟨hm.made.1, hm.made.2, hm.made.3⟩, hm.nonempty, hm.languages, hm.annotations, hm.ids, hm.subs, by simp⟩

end Iamf
