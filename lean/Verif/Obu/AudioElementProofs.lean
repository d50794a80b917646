import Verif.Obu.AudioElement
/-
  Round trips, safety and stability of audio elements.
-/
namespace Iamf

/-! ### Round trips -/

theorem wUleb_len {g : LebGen} {v : UInt32} {bs : Bits} (h : (wUleb v).eval g = (.ok (), bs)) : 8 ≤ bs.length := by
  obtain ⟨hf, rfl⟩ := wUleb_ok h
  rw [bytesBits_length]
  have := (g.fits_bounds v hf).1
  rw [LebGen.enc_length]
  omega

theorem wAll_len {α : Type} {g : LebGen} {w : α → Wr Unit} {k : Nat} {l : List α} {bs : Bits}
    (hw : ∀ a ∈ l, ∀ bs, (w a).eval g = (.ok (), bs) → k ≤ bs.length)
    (h : (wAll w l).eval g = (.ok (), bs)) : k * l.length ≤ bs.length := by
  induction l generalizing bs with
  | nil => simp
  | cons a as ih =>
    simp only [wAll] at h
    rw [Wr.eval_bind_ok] at h
    obtain ⟨_, b1, b2, e1, e2, rfl⟩ := h
    have h1 := hw a (by simp) b1 e1
    have h2 := ih (fun x hx => hw x (by simp [hx])) e2
    rw [List.length_cons, List.length_append, Nat.mul_add]
    omega

/-- A counted list whose elements take at least a byte each. -/
theorem RTB.countedC {α β γ : Type} {g : LebGen} {w : α → Wr Unit} {r : Rd β} {nf : α → β} {l : List α}
    {w2 : Wr Unit} {f : List β → Rd γ} {c : γ} {chk : UInt32 → Bool} {e : Err}
    (hc : l.length ≤ 2097152 → chk (UInt32.ofNat l.length) = true)
    (h : ∀ a ∈ l, RTB g (w a) r (nf a)) (hlen : ∀ a ∈ l, ∀ bs, (w a).eval g = (.ok (), bs) → 8 ≤ bs.length)
    (h2 : l.length ≤ 2097152 → RTB g w2 (f (l.map nf)) c) :
    RTB g ((wUleb (UInt32.ofNat l.length)).bind fun _ => (wAll w l).bind fun _ => w2)
      (rUleb.bind fun n => (Rd.check (chk n) e).bind fun _ => (rRep r n.toNat).bind f) c := by
  intro bs hb hl
  rw [Wr.eval_bind_ok] at hb
  obtain ⟨_, b1, b2, e1, hb, rfl⟩ := hb
  rw [Wr.eval_bind_ok] at hb
  obtain ⟨_, b3, b4, e3, e4, rfl⟩ := hb
  simp only [List.length_append] at hl
  have := wAll_len hlen e3
  have hn : (UInt32.ofNat l.length).toNat = l.length := by rw [UInt32.toNat_ofNat']; omega
  refine (rt_Uleb g _ b1 e1).bind ?_
  rw [hc (by omega), hn]
  exact (RTB.repN g w r nf l h b3 e3 (by omega)).bind (h2 (by omega) b4 e4 (by omega))

theorem RTB.counted {α β γ : Type} {g : LebGen} {w : α → Wr Unit} {r : Rd β} {nf : α → β} {l : List α}
    {w2 : Wr Unit} {f : List β → Rd γ} {c : γ}
    (h : ∀ a ∈ l, RTB g (w a) r (nf a)) (hlen : ∀ a ∈ l, ∀ bs, (w a).eval g = (.ok (), bs) → 8 ≤ bs.length)
    (h2 : l.length ≤ 2097152 → RTB g w2 (f (l.map nf)) c) :
    RTB g ((wUleb (UInt32.ofNat l.length)).bind fun _ => (wAll w l).bind fun _ => w2)
      (rUleb.bind fun n => (rRep r n.toNat).bind f) c :=
  RTB.countedC (chk := fun _ => true) (e := .invalidArgument) (fun _ => rfl) h hlen h2

theorem AmbisonicsMono.create_ok {s : UInt8} {m : List UInt8} {c : AmbisonicsMono}
    (h : AmbisonicsMono.create s m = .ok c) : c = ⟨s, m⟩ := by
  unfold AmbisonicsMono.create at h
  repeat' split at h
  all_goals simp_all

/-- Made by the factory, with fewer than 256 channels (see `C10_mono_size_truncation`). -/
def AmbisonicsMono.Made (c : AmbisonicsMono) : Prop :=
  AmbisonicsMono.create c.substreamCount c.channelMapping = .ok c ∧ c.channelMapping.length < 256

theorem AmbisonicsMono.rt (g : LebGen) (c : AmbisonicsMono) (hm : c.Made) : RT g c.write AmbisonicsMono.read c := by
  unfold AmbisonicsMono.write AmbisonicsMono.read
  simp only [Wr.bind_eq, Rd.bind_eq]
  have hn : (UInt8.ofNat c.channelMapping.length).toNat = c.channelMapping.length := by
    rw [UInt8.toNat_ofNat']; have := hm.2; omega
  refine (rt_U8_8 g _).seq ((rt_U8_8 g _).seq ?_)
  rw [hn]
  refine (rt_Bytes g _).map ?_
  rw [hm.1]; rfl

def AmbisonicsProjection.Made (c : AmbisonicsProjection) : Prop :=
  AmbisonicsProjection.create c.outputChannelCount c.substreamCount c.coupledSubstreamCount c.demixingMatrix = .ok c

theorem AmbisonicsProjection.made_ok {c : AmbisonicsProjection} (h : c.Made) :
    projectionCountsStatus c.outputChannelCount c.substreamCount c.coupledSubstreamCount = .ok () ∧
    c.demixingMatrix.length = (c.substreamCount.toNat + c.coupledSubstreamCount.toNat) * c.outputChannelCount.toNat := by
  unfold AmbisonicsProjection.Made AmbisonicsProjection.create at h
  split at h
  · simp at h
  next hs =>
    split at h
    · simp at h
    next hl => exact ⟨hs, by simpa using hl⟩

theorem AmbisonicsProjection.rt (g : LebGen) (c : AmbisonicsProjection) (hm : c.Made) :
    RTB g c.write AmbisonicsProjection.read c := by
  obtain ⟨hs, hl⟩ := AmbisonicsProjection.made_ok hm
  unfold AmbisonicsProjection.write AmbisonicsProjection.read
  simp only [Wr.bind_eq, Rd.bind_eq]
  refine (rt_U8_8 g _).b.seq ((rt_U8_8 g _).b.seq ((rt_U8_8 g _).b.seq (RTB.statusR hs ?_)))
  rw [← hl]
  refine (RTB.rep g wS16 rS16 _ fun a _ => (rt_S16 g a).b).map ?_
  rw [show AmbisonicsProjection.create _ _ _ _ = _ from hm]; rfl

def Ambisonics.Made : Ambisonics → Prop
  | .mono c => c.Made
  | .projection c => c.Made

theorem Ambisonics.rt (g : LebGen) (c : Ambisonics) (i : Ambisonics) (hm : c.Made) : RTB g c.write (Ambisonics.read i) c := by
  unfold Ambisonics.write Ambisonics.read
  simp only [Wr.bind_eq, Rd.bind_eq, Rd.pure_eq]
  cases c with
  | mono c =>
    refine (rt_Uleb g 0).b.seq ?_
    rw [if_pos rfl]
    exact (AmbisonicsMono.rt g c hm).b.map rfl
  | projection c =>
    refine (rt_Uleb g 1).b.seq ?_
    rw [if_neg (by decide), if_pos rfl]
    exact (AmbisonicsProjection.rt g c hm).map rfl

/-- What the bitstream carries of a layer. -/
def ChannelLayer.normalized (c : ChannelLayer) : ChannelLayer :=
  { c with
    outputGainFlag := if c.outputGainPresent then c.outputGainFlag else 0
    reservedB := if c.outputGainPresent then c.reservedB else 0
    outputGain := if c.outputGainPresent then c.outputGain else 0
    expanded := if c.layout = kLayoutExpanded then c.expanded else none }

theorem rt_layerGain (g : LebGen) (p : Bool) (a b : UInt8) (o : Int16) :
    RT g (if p = true then (wU8 a 6).bind fun _ => (wU8 b 2).bind fun _ => wS16 o else Wr.ret ()) (rLayerGain p)
      (if p then a else 0, if p then b else 0, if p then o else 0) := by
  unfold rLayerGain
  cases p
  · exact RT.ret g _
  · exact (rt_U8_6 g _).seq ((rt_U8_2 g _).seq ((rt_S16 g o).seqR (Reads.ret _)))

theorem ChannelLayer.rt (g : LebGen) (c : ChannelLayer) : RT g c.write ChannelLayer.read c.normalized := by
  unfold ChannelLayer.write ChannelLayer.read
  simp only [Wr.bind_eq, Wr.pure_eq, Rd.bind_eq, Rd.pure_eq]
  refine (rt_U8_4 g _).seq ((rt_Bool g _).seq ((rt_Bool g _).seq ((rt_U8_2 g _).seq ((rt_U8_8 g _).seq
    ((rt_U8_8 g _).seq ((rt_layerGain g _ _ _ _).seq ?_))))))
  unfold rLayerExpanded
  by_cases h : c.layout = kLayoutExpanded
  · rw [if_pos h, if_pos h]
    cases he : c.expanded with
    | none => intro bs hb; simp at hb
    | some e =>
      simp only [Rd.bind_eq, Rd.pure_eq]
      rw [Rd.bind_assoc]
      refine (rt_U8_8 g e).seqR ?_
      simp only [Rd.ret_bind]
      have : c.normalized = ⟨c.layout, c.outputGainPresent, c.reconGainPresent, c.reservedA, c.substreamCount,
        c.coupledSubstreamCount, if c.outputGainPresent then c.outputGainFlag else 0,
        if c.outputGainPresent then c.reservedB else 0, if c.outputGainPresent then c.outputGain else 0, some e⟩ := by
        simp only [ChannelLayer.normalized, if_pos h, he]
      rw [this]
      exact Reads.ret _
  · rw [if_neg h, if_neg h]
    simp only [Rd.pure_eq, Rd.ret_bind]
    have : c.normalized = ⟨c.layout, c.outputGainPresent, c.reconGainPresent, c.reservedA, c.substreamCount,
      c.coupledSubstreamCount, if c.outputGainPresent then c.outputGainFlag else 0,
      if c.outputGainPresent then c.reservedB else 0, if c.outputGainPresent then c.outputGain else 0, none⟩ := by
      simp only [ChannelLayer.normalized, if_neg h]
    rw [this]
    exact RT.ret g _

def ScalableLayout.normalized (c : ScalableLayout) : ScalableLayout := ⟨c.reserved, c.layers.map ChannelLayer.normalized⟩

theorem ScalableLayout.valid_normalized (c : ScalableLayout) (n : UInt32) : c.normalized.valid n = c.valid n := by
  unfold ScalableLayout.valid ScalableLayout.normalized ScalableLayout.numLayers cumulativeSubstreams
  simp only [List.length_map, List.foldl_map, List.any_map]
  rfl

theorem ScalableLayout.rt (g : LebGen) (c : ScalableLayout) (n : UInt32) (hl : c.layers.length < 256) :
    RTB g (c.write n) (ScalableLayout.read n) c.normalized := by
  unfold ScalableLayout.write ScalableLayout.read
  simp only [Wr.bind_eq, Rd.bind_eq, Rd.pure_eq]
  refine RTB.checkW fun hv => ?_
  have hn : c.numLayers.toNat = c.layers.length := by
    unfold ScalableLayout.numLayers; rw [UInt8.toNat_ofNat']; omega
  refine (rt_U8_3 g _).b.seq ((rt_U8_5 g _).b.seq ?_)
  rw [hn]
  refine RTB.seqR (RTB.repN g _ _ ChannelLayer.normalized _ fun a _ => (ChannelLayer.rt g a).b) ?_
  have := c.valid_normalized n
  rw [hv] at this
  have hv' : ScalableLayout.valid ⟨c.reserved, c.layers.map ChannelLayer.normalized⟩ n = true := this
  rw [hv']
  exact Reads.ret _

def ObjectsConfig.Made (c : ObjectsConfig) : Prop := ObjectsConfig.create c.numObjects c.extension = .ok c

theorem ObjectsConfig.rt (g : LebGen) (c : ObjectsConfig) (hm : c.Made) : RTB g c.write ObjectsConfig.read c := by
  unfold ObjectsConfig.write ObjectsConfig.read
  simp only [Wr.bind_eq, Rd.bind_eq]
  intro bs hb hl
  rw [Wr.eval_bind_ok] at hb
  obtain ⟨_, b1, b2, e1, e2, rfl⟩ := hb
  have hb2 := e2
  rw [Wr.eval_bind_ok] at e2
  obtain ⟨_, b3, b4, e3, e4, rfl⟩ := e2
  have := wBytes_ok e4
  subst this
  simp only [List.length_append, bytesBits_length] at hl
  have h8 := rt_U32_U8' g (UInt32.ofNat (c.extension.length + 1)) 8 (by omega) (by omega)
  have hv := congrArg UInt32.toNat (h8.2 b1 e1)
  rw [UInt8.toNat_toUInt32, UInt32.toNat_ofNat', Nat.mod_eq_of_lt (by omega)] at hv
  refine (h8.1 b1 e1).bind ?_
  have hne : ((UInt32.ofNat (c.extension.length + 1)).toUInt8 != 0) = true := by
    rw [bne_iff_ne]
    intro h0
    rw [h0] at hv
    simp at hv
  rw [hne]
  have hsz : (UInt32.ofNat (c.extension.length + 1)).toUInt8.toNat - 1 = c.extension.length := by omega
  rw [hsz]
  refine ((rt_U8_8 g _).seq ((rt_Bytes g _).map ?_)) _ hb2
  rw [show ObjectsConfig.create _ _ = _ from hm]; rfl

/-- Definitions as the audio element classes hold them: `Demixing`, `ReconGain`, or an extended definition whose
type is not one of the types with a class of their own in an audio element. -/
def ElementParamOk (p : ParamDef) : Prop :=
  p.Made ∧ match p.spec with
    | .demixing _ => True
    | .reconGain _ => True
    | .extended t _ => t ≠ 1 ∧ t ≠ 2
    | _ => False

theorem elementParam_rt (g : LebGen) (p : ParamDef) (hp : ElementParamOk p) :
    RTB g (wElementParam p) rElementParam p.normalized := by
  unfold wElementParam rElementParam
  simp only [Wr.bind_eq, Rd.bind_eq]
  refine (rt_Uleb g _).b.seq (RTB.checkW fun h0 => ?_)
  obtain ⟨b, s⟩ := p
  obtain ⟨hm, ht⟩ := hp
  simp only [bne_iff_ne] at h0
  simp only at ht h0 ⊢
  rw [if_neg h0]
  cases s with
  | demixing d =>
    exact (rt_paramDef g ⟨b, .demixing d⟩ hm (by simp)).b
  | reconGain d =>
    exact (rt_paramDef g ⟨b, .reconGain d⟩ hm (by simp)).b
  | extended t bytes =>
    have h2 : (ParamSpecific.extended t bytes).type ≠ 2 := ht.2
    have h1 : (ParamSpecific.extended t bytes).type ≠ 1 := ht.1
    rw [if_neg h2, if_neg h1]
    exact (RTB.sized g bytes).map rfl
  | _ => exact ht.elim

theorem type_normalized (p : ParamDef) : p.normalized.spec.type = p.spec.type := by
  obtain ⟨b, s⟩ := p; cases s <;> rfl

/-- The audio elements that the factories build (plus parameters), apart from reserved types and from sizes
of 256 and more that the accessors narrow to `uint8_t`. -/
structure AudioElement.Made (a : AudioElement) : Prop where
  ids : a.substreamIds.Nodup
  params : ∀ p ∈ a.params, ElementParamOk p
  type : a.elementType ≤ 2
  scalable : ∀ c, a.config = .scalable c → c.layers.length < 256
  ambisonics : ∀ c, a.config = .ambisonics c → c.Made
  objects : ∀ c, a.config = .objects c → c.Made

def ElementConfig.normalized : ElementConfig → ElementConfig
  | .scalable c => .scalable c.normalized
  | c => c

def AudioElement.normalized (a : AudioElement) : AudioElement :=
  { a with params := a.params.map ParamDef.normalized, config := a.config.normalized }

theorem AudioElement.rtConfig (g : LebGen) (a : AudioElement) (hm : a.Made) :
    RTB g a.writeConfig (rElementConfig a.elementType (UInt32.ofNat a.substreamIds.length)) a.config.normalized := by
  obtain ⟨id, ty, rs, cc, ids, ps, c⟩ := a
  obtain ⟨-, -, ht, h0, h1, h2⟩ := hm
  simp only at ht h0 h1 h2
  unfold AudioElement.writeConfig rElementConfig
  simp only [Wr.bind_eq, Rd.bind_eq, Rd.pure_eq]
  by_cases e0 : ty = 0
  · rw [if_pos e0, if_pos e0]
    cases c with
    | scalable c => exact (ScalableLayout.rt g c _ (h0 c rfl)).map rfl
    | _ => exact RTB.fail
  rw [if_neg e0, if_neg e0]
  by_cases e1 : ty = 1
  · rw [if_pos e1, if_pos e1]
    cases c with
    | ambisonics c =>
      refine RTB.checkW fun hc => (Ambisonics.rt g c _ (h1 c rfl)).seqR ?_
      rw [hc]; exact Reads.ret _
    | _ => exact RTB.fail
  rw [if_neg e1, if_neg e1]
  by_cases e2 : ty = 2
  · rw [if_pos e2, if_pos e2]
    cases c with
    | objects c => exact (ObjectsConfig.rt g c (h2 c rfl)).map rfl
    | _ => exact RTB.fail
  · exfalso
    have := UInt8.le_iff_toNat_le.mp ht
    have h2 : (2 : UInt8).toNat = 2 := rfl
    have : ty.toNat = 0 ∨ ty.toNat = 1 ∨ ty.toNat = 2 := by omega
    rcases this with h | h | h
    · exact e0 (UInt8.toNat_inj.mp h)
    · exact e1 (UInt8.toNat_inj.mp h)
    · exact e2 (UInt8.toNat_inj.mp h)

theorem AudioElement.rt (g : LebGen) (a : AudioElement) (footer : List UInt8) (hm : a.Made) :
    RTPayload g a.write AudioElement.read footer a.normalized := by
  refine RTB.payload fun n => ?_
  unfold AudioElement.write AudioElement.read
  simp only [Wr.bind_eq, Rd.bind_eq, Rd.pure_eq]
  refine RTB.checkW fun hu => (rt_Uleb g _).b.seq ((rt_U8_3 g _).b.seq ((rt_U8_5 g _).b.seq ((rt_Uleb g _).b.seq ?_)))
  refine RTB.counted (nf := id) (fun a _ => (rt_Uleb g a).b) (fun a _ bs hb => wUleb_len hb) fun hl => ?_
  rw [List.map_id]
  refine RTB.checkR (by simpa using hm.ids) (RTB.checkW fun hp => ?_)
  have hu' : uniqueParamTypes (a.params.map ParamDef.normalized) = true := by
    rw [← hu]; unfold uniqueParamTypes
    congr 2
    rw [List.map_map]
    exact List.map_congr_left fun p _ => type_normalized p
  refine RTB.countedC (nf := ParamDef.normalized) (fun _ => hp)
    (fun p hp => elementParam_rt g p (hm.params p hp)) ?_ fun _ => ?_
  · intro p _ bs hb
    unfold wElementParam at hb
    simp only [Wr.bind_eq] at hb
    rw [Wr.eval_bind_ok] at hb
    obtain ⟨_, b1, b2, e1, -, rfl⟩ := hb
    have := wUleb_len e1
    rw [List.length_append]; omega
  · exact RTB.checkR hu' ((AudioElement.rtConfig g a hm).map rfl)

/-! ### Safety and stability -/

theorem Sf.ofExcept {α : Type} {x : Except Err α} (h : ∀ e, x = .error e → e.fatal = false) :
    Sf (Rd.ofExcept x) (fun a => x = .ok a) := by
  cases x with
  | ok a => exact Sf.ret rfl
  | error e => exact Sf.fail (h e rfl)
theorem Stable.ofExcept {α : Type} {x : Except Err α} : Stable (Rd.ofExcept x) := by
  cases x with
  | ok a => exact Stable.ret _
  | error e => exact Stable.fail _

theorem validateOutputChannelCount_err {c : UInt8} {e : Err} (h : validateOutputChannelCount c = .error e) :
    e.fatal = false := by
  unfold validateOutputChannelCount nextValidOutputChannelCount at h
  cases hf : ambisonicsChannelCounts.find? (fun v => decide (c ≤ v)) with
  | none => simp only [hf, Except.error.injEq] at h; subst h; rfl
  | some v =>
    simp only [hf] at h
    split at h
    · simp at h
    · simp only [Except.error.injEq] at h; subst h; rfl

theorem AmbisonicsMono.create_err {s : UInt8} {m : List UInt8} {e : Err} (h : AmbisonicsMono.create s m = .error e) :
    e.fatal = false := by
  unfold AmbisonicsMono.create at h
  split at h
  next e' he => simp only [Except.error.injEq] at h; subst h; exact validateOutputChannelCount_err he
  · repeat' split at h
    all_goals first | (simp only [Except.error.injEq] at h; subst h; rfl) | simp at h

theorem AmbisonicsMono.sf : Sf AmbisonicsMono.read AmbisonicsMono.Made := by
  unfold AmbisonicsMono.read
  simp only [Rd.bind_eq]
  refine (Sf.u8 8).bind fun n hn => (Sf.u8 8).bind fun s _ => (Sf.bytes _).bind fun m hm => ?_
  refine (Sf.ofExcept fun e => AmbisonicsMono.create_err).weaken fun c hc => ?_
  have := AmbisonicsMono.create_ok hc
  subst this
  exact ⟨hc, by simp only; omega⟩
theorem AmbisonicsMono.stable : Stable AmbisonicsMono.read := by
  unfold AmbisonicsMono.read
  simp only [Rd.bind_eq]
  exact (Stable.u8 _).bind fun _ => (Stable.u8 _).bind fun _ => (Stable.bytes _).bind fun _ => Stable.ofExcept

theorem projectionCountsStatus_err {o s c : UInt8} {e : Err} (h : projectionCountsStatus o s c = .error e) :
    e.fatal = false := by
  unfold projectionCountsStatus at h
  split at h
  next e' he => simp only [Except.error.injEq] at h; subst h; exact validateOutputChannelCount_err he
  · repeat' split at h
    all_goals first | (simp only [Except.error.injEq] at h; subst h; rfl) | simp at h

theorem AmbisonicsProjection.create_err {o s c : UInt8} {m : List Int16} {e : Err}
    (h : AmbisonicsProjection.create o s c m = .error e) : e.fatal = false := by
  unfold AmbisonicsProjection.create at h
  split at h
  next e' he => simp only [Except.error.injEq] at h; subst h; exact projectionCountsStatus_err he
  · split at h
    · simp only [Except.error.injEq] at h; subst h; rfl
    · simp at h

theorem AmbisonicsProjection.create_ok {o s c : UInt8} {m : List Int16} {p : AmbisonicsProjection}
    (h : AmbisonicsProjection.create o s c m = .ok p) : p = ⟨o, s, c, m⟩ := by
  unfold AmbisonicsProjection.create at h
  repeat' split at h
  all_goals simp_all

theorem AmbisonicsProjection.sf : Sf AmbisonicsProjection.read AmbisonicsProjection.Made := by
  unfold AmbisonicsProjection.read
  simp only [Rd.bind_eq]
  refine (Sf.u8 8).bind fun o _ => (Sf.u8 8).bind fun s _ => (Sf.u8 8).bind fun c _ =>
    (Sf.status fun e => projectionCountsStatus_err).bind fun _ _ => (Sf.rep Sf.s16 _).bind fun m _ => ?_
  refine (Sf.ofExcept fun e => AmbisonicsProjection.create_err).weaken fun p hp => ?_
  have := AmbisonicsProjection.create_ok hp
  subst this
  exact hp
theorem AmbisonicsProjection.stable : Stable AmbisonicsProjection.read := by
  unfold AmbisonicsProjection.read
  simp only [Rd.bind_eq]
  exact (Stable.u8 _).bind fun _ => (Stable.u8 _).bind fun _ => (Stable.u8 _).bind fun _ => Stable.status.bind fun _ =>
    (Stable.rep Stable.s16 _).bind fun _ => Stable.ofExcept

theorem Ambisonics.sf (i : Ambisonics) (hi : i.Made) : Sf (Ambisonics.read i) Ambisonics.Made := by
  unfold Ambisonics.read
  simp only [Rd.bind_eq, Rd.pure_eq]
  refine Sf.uleb.bind fun m _ => Sf.ite (fun _ => ?_) fun _ => Sf.ite (fun _ => ?_) fun _ => Sf.ret hi
  · exact AmbisonicsMono.sf.bind fun c hc => Sf.ret hc
  · exact AmbisonicsProjection.sf.bind fun c hc => Sf.ret hc
theorem Ambisonics.stable (i : Ambisonics) : Stable (Ambisonics.read i) := by
  unfold Ambisonics.read
  simp only [Rd.bind_eq, Rd.pure_eq]
  refine Stable.uleb.bind fun m => Stable.ite (fun _ => ?_) fun _ => Stable.ite (fun _ => ?_) fun _ => Stable.ret _
  · exact AmbisonicsMono.stable.bind fun c => Stable.ret _
  · exact AmbisonicsProjection.stable.bind fun c => Stable.ret _

theorem ScalableLayout.sf (n : UInt32) : Sf (ScalableLayout.read n) (fun c => c.valid n = true ∧ c.layers.length < 8) := by
  unfold ScalableLayout.read
  simp only [Rd.bind_eq, Rd.pure_eq]
  refine (Sf.u8 3).bind fun k hk => (Sf.u8 5).bind fun r _ => (Sf.rep (Q := fun _ => True) ?_ _).bind fun l hl =>
    (Sf.check rfl).bind fun _ hv => Sf.ret ⟨hv, by simp only; rw [hl.1]; simpa using hk⟩
  unfold ChannelLayer.read rLayerGain rLayerExpanded
  sf_auto
theorem ScalableLayout.stable (n : UInt32) : Stable (ScalableLayout.read n) := by
  unfold ScalableLayout.read ChannelLayer.read rLayerGain rLayerExpanded
  stable_auto

theorem ObjectsConfig.sf : Sf ObjectsConfig.read ObjectsConfig.Made := by
  unfold ObjectsConfig.read
  simp only [Rd.bind_eq]
  refine (Sf.u8 8).bind fun _ _ => (Sf.check rfl).bind fun _ _ => (Sf.u8 8).bind fun n _ => (Sf.bytes _).bind fun ext _ => ?_
  refine (Sf.ofExcept fun e he => ?_).weaken fun c hc => ?_
  · unfold ObjectsConfig.create at he
    split at he
    · simp only [Except.error.injEq] at he; subst he; rfl
    · simp at he
  · have hc' := hc
    unfold ObjectsConfig.create at hc
    split at hc
    · simp at hc
    · simp only [Except.ok.injEq] at hc; subst hc; exact hc'
theorem ObjectsConfig.stable : Stable ObjectsConfig.read := by
  unfold ObjectsConfig.read
  simp only [Rd.bind_eq]
  exact (Stable.u8 _).bind fun _ => Stable.check.bind fun _ => (Stable.u8 _).bind fun _ => (Stable.bytes _).bind fun _ =>
    Stable.ofExcept

theorem sf_elementParam : Sf rElementParam (fun p => ElementParamOk p ∧ p.spec.type ≠ 0) := by
  unfold rElementParam
  simp only [Rd.bind_eq]
  refine Sf.uleb.bind fun t _ => Sf.ite (fun _ => Sf.fail rfl) fun h0 => Sf.ite (fun _ => ?_) fun h2 =>
    Sf.ite (fun _ => ?_) fun h1 => ?_
  · unfold rParamDef
    refine (sf_paramBase 2).bind fun b hb => ?_
    exact Sf.ret ⟨⟨hb, trivial⟩, by show (2 : UInt32) ≠ 0; decide⟩
  · unfold rParamDef
    refine (sf_paramBase 1).bind fun b hb => ?_
    refine (Sf.bind DefaultDemixingInfo.sf (R := fun s => ∃ d, s = .demixing d) fun d _ => Sf.ret ⟨d, rfl⟩).bind ?_
    rintro s ⟨d, rfl⟩
    exact Sf.ret ⟨⟨hb, trivial⟩, by show (1 : UInt32) ≠ 0; decide⟩
  · unfold rExtendedParamDef
    refine sf_sized.bind fun b _ => Sf.ret ⟨⟨?_, h1, h2⟩, h0⟩
    intro s hs
    simp [ParamBase.default] at hs
theorem stable_elementParam : Stable rElementParam := by
  unfold rElementParam; stable_auto

/-- What a reader guarantees about the configuration of an element. -/
def ElementConfig.SoundFor (type : UInt8) (n : UInt32) (c : ElementConfig) : Prop :=
  (type = 0 → ∃ s, c = .scalable s ∧ s.valid n = true ∧ s.layers.length < 8) ∧
  (type = 1 → ∃ a, c = .ambisonics a ∧ a.Made ∧ n = a.numSubstreams.toUInt32) ∧
  (type = 2 → ∃ o, c = .objects o ∧ o.Made) ∧
  (type ≠ 0 → type ≠ 1 → type ≠ 2 → c = .scalable ⟨0, []⟩)

theorem sf_elementConfig (t : UInt8) (n : UInt32) : Sf (rElementConfig t n) (ElementConfig.SoundFor t n) := by
  unfold rElementConfig
  simp only [Rd.bind_eq, Rd.pure_eq]
  refine Sf.ite (fun h0 => ?_) fun h0 => Sf.ite (fun h1 => ?_) fun h1 => Sf.ite (fun h2 => ?_) fun h2 => ?_
  · refine (ScalableLayout.sf n).bind fun c hc => Sf.ret ⟨fun _ => ⟨c, rfl, hc⟩, ?_, ?_, fun h => absurd h0 h⟩ <;>
      (intro h; rw [h0] at h; exact absurd h (by decide))
  · refine (Ambisonics.sf _ ?_).bind fun c hc => (Sf.check rfl).bind fun _ hn =>
      Sf.ret ⟨?_, fun _ => ⟨c, rfl, hc, by simpa using hn⟩, ?_, fun _ h => absurd h1 h⟩
    · exact ⟨by decide +kernel, by decide⟩
    all_goals (intro h; rw [h1] at h; exact absurd h (by decide))
  · refine ObjectsConfig.sf.bind fun c hc => Sf.ret ⟨?_, ?_, fun _ => ⟨c, rfl, hc⟩, fun _ _ h => absurd h2 h⟩ <;>
      (intro h; rw [h2] at h; exact absurd h (by decide))
  · refine Sf.uleb.bind fun n _ => (Sf.repT (by sf_auto) _).bind fun _ _ => Sf.ret ⟨?_, ?_, ?_, fun _ _ _ => rfl⟩
    · exact fun h => absurd h h0
    · exact fun h => absurd h h1
    · exact fun h => absurd h h2
theorem stable_elementConfig (t : UInt8) (n : UInt32) : Stable (rElementConfig t n) := by
  unfold rElementConfig
  simp only [Rd.bind_eq, Rd.pure_eq]
  refine Stable.ite (fun h0 => ?_) fun h0 => Stable.ite (fun h1 => ?_) fun h1 => Stable.ite (fun h2 => ?_) fun h2 => ?_
  · exact (ScalableLayout.stable n).bind fun c => Stable.ret _
  · exact (Ambisonics.stable _).bind fun c => Stable.check.bind fun _ => Stable.ret _
  · exact ObjectsConfig.stable.bind fun c => Stable.ret _
  · stable_auto

theorem AudioElement.sf (k : Int) : Sf (AudioElement.read k) (fun a => a.substreamIds.Nodup ∧ a.substreamIds.length < 4294967296 ∧ a.elementType.toNat < 8 ∧
    a.params.length ≤ 256 ∧ uniqueParamTypes a.params = true ∧ (∀ p ∈ a.params, ElementParamOk p ∧ p.spec.type ≠ 0) ∧
    a.config.SoundFor a.elementType (UInt32.ofNat a.substreamIds.length)) := by
  unfold AudioElement.read
  simp only [Rd.bind_eq, Rd.pure_eq]
  refine Sf.uleb.bind fun id _ => (Sf.u8 3).bind fun ty hty => (Sf.u8 5).bind fun rs _ => Sf.uleb.bind fun cc _ =>
    Sf.uleb.bind fun n _ => (Sf.rep Sf.uleb _).bind fun ids hids => (Sf.check rfl).bind fun _ hnd => Sf.uleb.bind fun np _ =>
    (Sf.check rfl).bind fun _ hnp => (Sf.rep sf_elementParam _).bind fun ps hps => (Sf.check rfl).bind fun _ hu =>
    (sf_elementConfig _ _).bind fun c hc => Sf.ret ⟨by simpa using hnd, by simp only; rw [hids.1]; exact n.toNat_lt, hty, ?_, hu, hps.2, hc⟩
  simp only [kMaxNumParameters] at hnp ⊢
  rw [hps.1]
  simpa using hnp

theorem AudioElement.stable (k : Int) : Stable (AudioElement.read k) := by
  unfold AudioElement.read
  simp only [Rd.bind_eq, Rd.pure_eq]
  exact Stable.uleb.bind fun id => (Stable.u8 3).bind fun ty => (Stable.u8 5).bind fun rs => Stable.uleb.bind fun cc =>
    Stable.uleb.bind fun n => (Stable.rep Stable.uleb _).bind fun ids => Stable.check.bind fun _ => Stable.uleb.bind fun np =>
    Stable.check.bind fun _ => (Stable.rep stable_elementParam _).bind fun ps => Stable.check.bind fun _ =>
    (stable_elementConfig _ _).bind fun c => Stable.ret _

end Iamf
