import Verif.Obu.Params
/-
  Round trips, safety and stability of parameter definitions and parameter blocks; facts about schedules.
-/
namespace Iamf

theorem addUint32_ok {a b c : UInt32} (h : addUint32CheckOverflow a b = .ok c) :
    a.toNat + b.toNat < 4294967296 ∧ c.toNat = a.toNat + b.toNat := by
  unfold addUint32CheckOverflow at h
  split at h
  · simp at h
  next hn =>
    simp only [Except.ok.injEq] at h
    rw [← h, UInt32.toNat_ofNat']
    omega

namespace SubblockSchedule

theorem sumDurations_ok {l : List UInt32} {acc t : UInt32} (h : sumDurations l acc = .ok t) :
    (∀ d ∈ l, d ≠ 0) ∧ t.toNat = acc.toNat + (l.map UInt32.toNat).sum := by
  induction l generalizing acc with
  | nil => simp only [sumDurations, Except.ok.injEq] at h; subst h; simp
  | cons d ds ih =>
    simp only [sumDurations] at h
    split at h
    · simp at h
    next hd =>
      split at h
      · simp at h
      next acc' ha =>
        obtain ⟨i1, i2⟩ := ih h
        obtain ⟨-, a2⟩ := addUint32_ok ha
        refine ⟨?_, ?_⟩
        · intro x hx
          simp only [List.mem_cons] at hx
          rcases hx with rfl | hx
          · exact hd
          · exact i1 x hx
        · simp only [List.map_cons, List.sum_cons]; omega

theorem sumDurations_err {l : List UInt32} {acc : UInt32} {e : Err} (h : sumDurations l acc = .error e) :
    e = .invalidArgument := by
  induction l generalizing acc with
  | nil => simp [sumDurations] at h
  | cons d ds ih =>
    simp only [sumDurations] at h
    split at h
    · simpa using h.symm
    · split at h
      next e' ha =>
        simp only [Except.error.injEq] at h
        subst h
        unfold addUint32CheckOverflow at ha
        split at ha
        · simpa using ha.symm
        · simp at ha
      · exact ih h

theorem createConstant_err {d c : UInt32} {e : Err} (h : createConstant d c = .error e) : e = .invalidArgument := by
  unfold createConstant at h
  split at h
  · simpa using h.symm
  · split at h
    · simpa using h.symm
    · split at h
      · simpa using h.symm
      · simp only at h
        split at h
        · split at h
          · simp at h
          · simpa using h.symm
        · split at h
          · simp at h
          · simpa using h.symm

theorem createVariable_err {l : List UInt32} {e : Err} (h : createVariable l = .error e) : e = .invalidArgument := by
  unfold createVariable at h
  simp only at h
  split at h
  · split at h
    next hs => simp only [Except.error.injEq] at h; subst h; exact sumDurations_err hs
    · simp at h
  · simpa using h.symm

/-- What `CreateWithConstantSubblockDuration` guarantees. -/
theorem createConstant_ok {d c : UInt32} {s : SubblockSchedule} (h : createConstant d c = .ok s) :
    s.duration = d ∧ s.constantSubblockDuration = c ∧ s.subblockDurations = [] ∧ c ≠ 0 ∧ d ≠ 0 ∧
    c.toNat ≤ d.toNat ∧ 1 ≤ s.numSubblocks.toNat ∧ s.numSubblocks.toNat ≤ 192000 ∧
    (s.numSubblocks.toNat - 1) * c.toNat < d.toNat ∧ d.toNat ≤ s.numSubblocks.toNat * c.toNat := by
  unfold createConstant at h
  split at h
  · simp at h
  next hd =>
  split at h
  · simp at h
  next hc =>
  split at h
  · simp at h
  next hcd =>
  simp only at h
  have hdn : d.toNat ≠ 0 := fun he => hd (UInt32.toNat_inj.mp he)
  have hcn : c.toNat ≠ 0 := fun he => hc (UInt32.toNat_inj.mp he)
  have hcdn : c.toNat ≤ d.toNat := by
    have : ¬ (c > d) := hcd
    rw [gt_iff_lt, UInt32.lt_iff_toNat_lt] at this; omega
  have hdm := Nat.div_add_mod d.toNat c.toNat
  have hml := Nat.mod_lt d.toNat (Nat.pos_of_ne_zero hcn)
  have hdiv : 1 ≤ d.toNat / c.toNat := Nat.div_pos hcdn (Nat.pos_of_ne_zero hcn)
  have hdlt := d.toNat_lt
  have hcomm := Nat.mul_comm c.toNat (d.toNat / c.toNat)
  split at h
  next hmod =>
    have hmod' : d.toNat % c.toNat ≠ 0 := by
      intro he
      apply hmod
      apply UInt32.toNat_inj.mp
      rw [UInt32.toNat_mod]; exact he
    split at h
    next hr =>
      simp only [Except.ok.injEq] at h
      subst h
      simp only [inRange32, Bool.and_eq_true, decide_eq_true_eq] at hr
      have hk : kMaxNumSubblocks.toNat = 192000 := rfl
      have h1 : (1 : UInt32).toNat = 1 := rfl
      have hr1 := UInt32.le_iff_toNat_le.mp hr.1
      have hr2 := UInt32.le_iff_toNat_le.mp hr.2
      rw [h1] at hr1
      rw [hk] at hr2
      have hdivc : d.toNat / c.toNat < d.toNat := by
        apply Nat.div_lt_self (by omega)
        rcases Nat.lt_or_ge 1 c.toNat with h2 | h2
        · exact h2
        · have : c.toNat = 1 := by omega
          rw [this] at hmod'; omega
      have hv : (d / c + 1).toNat = d.toNat / c.toNat + 1 := by
        rw [UInt32.toNat_add, UInt32.toNat_div, h1]
        omega
      rw [hv] at hr1 hr2
      refine ⟨rfl, rfl, rfl, hc, hd, hcdn, ?_, ?_, ?_, ?_⟩
      · simp only [hv]; omega
      · simp only [hv]; omega
      · simp only [hv]
        have : d.toNat / c.toNat + 1 - 1 = d.toNat / c.toNat := by omega
        rw [this]; omega
      · simp only [hv]
        rw [Nat.add_mul]; omega
    · simp at h
  next hmod =>
    have hmod' : d.toNat % c.toNat = 0 := by
      have he : d % c = 0 := by
        rcases Classical.em (d % c = 0) with h0 | h0
        · exact h0
        · exact absurd h0 hmod
      have := congrArg UInt32.toNat he
      rw [UInt32.toNat_mod] at this; exact this
    split at h
    next hr =>
      simp only [Except.ok.injEq] at h
      subst h
      simp only [inRange32, Bool.and_eq_true, decide_eq_true_eq] at hr
      have hk : kMaxNumSubblocks.toNat = 192000 := rfl
      have h1 : (1 : UInt32).toNat = 1 := rfl
      have hr1 := UInt32.le_iff_toNat_le.mp hr.1
      have hr2 := UInt32.le_iff_toNat_le.mp hr.2
      rw [h1] at hr1
      rw [hk] at hr2
      have hv : (d / c).toNat = d.toNat / c.toNat := UInt32.toNat_div d c
      rw [hv] at hr1 hr2
      refine ⟨rfl, rfl, rfl, hc, hd, hcdn, ?_, ?_, ?_, ?_⟩
      · simp only [hv]; omega
      · simp only [hv]; omega
      · simp only [hv]
        rw [Nat.sub_mul]; omega
      · simp only [hv]; omega
    · simp at h

/-- What `CreateWithVariableSubblockDuration` guarantees. -/
theorem createVariable_ok {l : List UInt32} {s : SubblockSchedule} (hl : l.length < 4294967296)
    (h : createVariable l = .ok s) :
    s.constantSubblockDuration = 0 ∧ s.subblockDurations = l ∧ s.numSubblocks.toNat = l.length ∧
    1 ≤ l.length ∧ l.length ≤ 192000 ∧ (∀ d ∈ l, d ≠ 0) ∧ s.duration.toNat = (l.map UInt32.toNat).sum := by
  unfold createVariable at h
  simp only at h
  have hn : (UInt32.ofNat l.length).toNat = l.length := by rw [UInt32.toNat_ofNat']; omega
  split at h
  next hr =>
    rw [hn, List.take_length] at h
    split at h
    · simp at h
    next t ht =>
      simp only [Except.ok.injEq] at h
      subst h
      obtain ⟨a1, a2⟩ := sumDurations_ok ht
      simp only [inRange32, Bool.and_eq_true, decide_eq_true_eq] at hr
      have hk : kMaxNumSubblocks.toNat = 192000 := rfl
      have h1 : (1 : UInt32).toNat = 1 := rfl
      have hr1 := UInt32.le_iff_toNat_le.mp hr.1
      have hr2 := UInt32.le_iff_toNat_le.mp hr.2
      rw [h1, hn] at hr1
      rw [hk, hn] at hr2
      refine ⟨rfl, rfl, hn, hr1, hr2, a1, ?_⟩
      rw [a2]; simp
  · simp at h

theorem sum_ge_length (l : List UInt32) (h : ∀ d ∈ l, d ≠ 0) : l.length ≤ (l.map UInt32.toNat).sum := by
  induction l with
  | nil => simp
  | cons d ds ih =>
    have h1 : d.toNat ≠ 0 := fun he => h d (by simp) (UInt32.toNat_inj.mp he)
    have h2 := ih fun x hx => h x (by simp [hx])
    simp only [List.length_cons, List.map_cons, List.sum_cons]; omega

end SubblockSchedule

/-! ### Round trips -/

theorem rt_rep2 {β : Type} (g : LebGen) (r : Rd β) (l : List (Wr Unit × β)) (h : ∀ p ∈ l, RT g p.1 r p.2) :
    RT g (wAll id (l.map Prod.fst)) (rRep r l.length) (l.map Prod.snd) := by
  induction l with
  | nil => exact RT.ret g _
  | cons p ps ih =>
    have h2 := ih fun q hq => h q (by simp [hq])
    exact (h p (by simp)).seq (h2.map rfl)

namespace SubblockSchedule

theorem rt_interlaced {β : Type} (g : LebGen) (r : Rd β) (ds : List UInt32) (l : List (Wr Unit × β))
    (hl : ds.length = l.length) (h : ∀ p ∈ l, RT g p.1 r p.2) :
    RT g (wInterlaced ds (some (l.map Prod.fst)))
      (rRep (rUleb.bind fun d => r.bind fun x => Rd.ret (d, x)) ds.length) (ds.zip (l.map Prod.snd)) := by
  induction ds generalizing l with
  | nil => exact RT.ret g _
  | cons d ds ih =>
    match l with
    | [] => simp at hl
    | p :: ps =>
      have h2 := ih ps (by simpa using hl) fun q hq => h q (by simp [hq])
      intro bs hb
      simp only [List.map_cons, wInterlaced] at hb
      rw [Wr.eval_bind_ok] at hb
      obtain ⟨_, b1, b2, e1, e2, rfl⟩ := hb
      rw [Wr.eval_bind_ok] at e2
      obtain ⟨_, b3, b4, e3, e4, rfl⟩ := e2
      have hstep : Reads (rUleb.bind fun d => r.bind fun x => Rd.ret (d, x)) (b1 ++ b3) (d, p.2) := by
        refine (rt_Uleb g d b1 e1).bind ?_
        have := (h p (by simp) b3 e3).bind (f := fun x => Rd.ret (d, x)) (Reads.ret _)
        rw [List.append_nil] at this
        exact this
      have htail := (h2 b4 e4).bind (f := fun as => Rd.ret ((d, p.2) :: as)) (Reads.ret _)
      rw [List.append_nil] at htail
      have := hstep.bind (f := fun a => (rRep (rUleb.bind fun d => r.bind fun x => Rd.ret (d, x)) ds.length).bind
        fun as => Rd.ret (a :: as)) htail
      rw [List.append_assoc] at this
      exact this

/-- Round trip of a schedule interlaced with data. -/
theorem rt_data {β : Type} (g : LebGen) (s : SubblockSchedule) (hm : s.Made) (r : Rd β) (l : List (Wr Unit × β))
    (h : ∀ p ∈ l, RT g p.1 r p.2) : RT g (s.write (some (l.map Prod.fst))) (parse r) (s, l.map Prod.snd) := by
  unfold write parse
  simp only [Wr.bind_eq, Wr.pure_eq, Rd.bind_eq, Rd.pure_eq]
  refine RT.checkW fun hlen => ?_
  simp only [List.length_map, beq_iff_eq] at hlen
  refine (rt_Uleb g _).seq ((rt_Uleb g _).seq ?_)
  rcases hm with ⟨d, c, hc⟩ | ⟨ds, hds, hv⟩
  · obtain ⟨e1, e2, e3, e4, -⟩ := createConstant_ok hc
    rw [e2, if_pos e4, if_pos e4, e1, hc]
    simp only
    rw [← hlen]
    exact (rt_rep2 g r l h).map rfl
  · obtain ⟨e1, e2, e3, e4, e5, e6, e7⟩ := createVariable_ok hds hv
    rw [e1, if_neg (by simp), if_neg (by simp)]
    refine (rt_Uleb g _).seq ?_
    have hge := sum_ge_length ds e6
    have h1 : (s.duration != 0) = true := by
      rw [bne_iff_ne]
      intro he
      have := congrArg UInt32.toNat he
      rw [e7, show (0 : UInt32).toNat = 0 from rfl] at this
      omega
    have h2 : inRange32 s.numSubblocks 1 kMaxNumSubblocks = true := by
      simp only [inRange32, Bool.and_eq_true, decide_eq_true_eq]
      refine ⟨UInt32.le_iff_toNat_le.mpr ?_, UInt32.le_iff_toNat_le.mpr ?_⟩
      · rw [e3]; exact e4
      · rw [e3]; exact e5
    have h3 : decide (s.numSubblocks ≤ s.duration) = true := by
      simp only [decide_eq_true_eq]
      apply UInt32.le_iff_toNat_le.mpr
      omega
    refine RT.checkR h1 (RT.checkR h2 (RT.checkR h3 ?_))
    rw [e2, e3, List.take_length]
    have := rt_interlaced g r ds l (by omega) h
    refine this.map ?_
    have hf : (ds.zip (l.map Prod.snd)).map Prod.fst = ds := by
      apply List.map_fst_zip; simp; omega
    have hs : (ds.zip (l.map Prod.snd)).map Prod.snd = l.map Prod.snd := by
      apply List.map_snd_zip; simp; omega
    simp only [hf, hs, hv, beq_self_eq_true, Rd.check, ↓reduceIte, Rd.bind]

theorem wInterlaced_none (ds : List UInt32) :
    wInterlaced ds none = wInterlaced ds (some (List.replicate ds.length (.ret ()))) := by
  induction ds with
  | nil => rfl
  | cons d ds ih =>
    simp only [List.length_cons, List.replicate_succ, wInterlaced, Wr.bind]
    rw [ih]

theorem wAll_ret (n : Nat) : wAll id (List.replicate n (Wr.ret ())) = Wr.ret () := by
  induction n with
  | zero => rfl
  | succ n ih => simp only [List.replicate_succ, wAll, id, Wr.bind, ih]

theorem write_none (s : SubblockSchedule) (hm : s.Made) :
    s.write none = s.write (some (List.replicate s.numSubblocks.toNat (.ret ()))) := by
  unfold write
  simp only [Wr.bind_eq, Wr.pure_eq, List.length_replicate, beq_self_eq_true, Wr.check, ↓reduceIte, wAll_ret]
  have : (s.subblockDurations.take s.numSubblocks.toNat).length = s.numSubblocks.toNat ∨ s.constantSubblockDuration ≠ 0 := by
    rcases hm with ⟨d, c, hc⟩ | ⟨ds, hds, hv⟩
    · obtain ⟨e1, e2, e3, e4, -⟩ := createConstant_ok hc
      right; rw [e2]; exact e4
    · obtain ⟨e1, e2, e3, -⟩ := createVariable_ok hds hv
      left; rw [e2, e3, List.take_length]
  rcases this with h | h
  · rw [wInterlaced_none, h]
  · simp only [if_pos h]

theorem rt (g : LebGen) (s : SubblockSchedule) (hm : s.Made) : RT g (s.write none) SubblockSchedule.read s := by
  rw [write_none s hm]
  have := rt_data g s hm (Rd.ret ()) (List.replicate s.numSubblocks.toNat (Wr.ret (), ())) (by
    intro p hp
    rw [List.mem_replicate] at hp
    rw [hp.2]
    exact RT.ret g ())
  rw [List.map_replicate] at this
  exact this.map rfl

theorem sf_parse {β : Type} {r : Rd β} {Q : β → Prop} (h : Sf r Q) :
    Sf (parse r) (fun p => p.1.Made ∧ p.2.length = p.1.numSubblocks.toNat ∧ ∀ b ∈ p.2, Q b) := by
  unfold parse
  simp only [Rd.bind_eq, Rd.pure_eq]
  refine Sf.uleb.bind fun d _ => Sf.uleb.bind fun c _ => ?_
  refine Sf.ite (fun _ => ?_) (fun _ => ?_)
  · split
    next e he => rw [createConstant_err he]; exact Sf.fail rfl
    next s hs => exact (Sf.rep h _).bind fun l hl => Sf.ret ⟨.inl ⟨d, c, hs⟩, hl.1, hl.2⟩
  · refine Sf.uleb.bind fun n _ => (Sf.check rfl).bind fun _ _ => (Sf.check rfl).bind fun _ hn => (Sf.check rfl).bind fun _ _ => ?_
    refine (Sf.rep (Q := fun p => Q p.2) (Sf.uleb.bind fun d _ => h.bind fun x hx => Sf.ret hx) n.toNat).bind fun l hl => ?_
    split
    next e he => rw [createVariable_err he]; exact Sf.fail rfl
    next s hs =>
      refine (Sf.check rfl).bind fun _ _ => Sf.ret ?_
      have hlt : (l.map Prod.fst).length < 4294967296 := by
        rw [List.length_map, hl.1]; exact n.toNat_lt
      refine ⟨.inr ⟨_, hlt, hs⟩, ?_, ?_⟩
      · rw [List.length_map, (createVariable_ok hlt hs).2.2.1, List.length_map]
      · intro b hb
        rw [List.mem_map] at hb
        obtain ⟨p, hp, rfl⟩ := hb
        exact hl.2 p hp

theorem sf_read : Sf SubblockSchedule.read Made :=
  (sf_parse (Q := fun _ => True) (Sf.ret trivial)).bind fun _ h => Sf.ret h.1

theorem stable_parse {β : Type} {r : Rd β} (h : Stable r) : Stable (parse r) := by
  unfold parse
  simp only [Rd.bind_eq, Rd.pure_eq]
  refine Stable.uleb.bind fun d => Stable.uleb.bind fun c => ?_
  refine Stable.ite (fun _ => ?_) (fun _ => ?_)
  · split
    · exact Stable.fail _
    · exact (Stable.rep h _).bind fun l => Stable.ret _
  · refine Stable.uleb.bind fun n => Stable.check.bind fun _ => Stable.check.bind fun _ => Stable.check.bind fun _ => ?_
    refine (Stable.rep (Stable.uleb.bind fun d => h.bind fun x => Stable.ret _) _).bind fun l => ?_
    split
    · exact Stable.fail _
    · exact Stable.check.bind fun _ => Stable.ret _

theorem stable_read : Stable SubblockSchedule.read := (stable_parse (Stable.ret _)).bind fun _ => Stable.ret _

end SubblockSchedule

/-! ### Parameter data -/

theorem DemixingInfo.rt (g : LebGen) (d : DemixingInfo) : RT g d.write DemixingInfo.read d := by
  unfold DemixingInfo.write DemixingInfo.read
  simp only [Wr.bind_eq, Rd.bind_eq, Rd.pure_eq]
  refine (rt_U8_3 g _).seq ((rt_U8_5 g _).seq ?_)
  intro bs hb
  cases hm : dmixpModeSupported d.dmixpMode with
  | false => rw [hm] at hb; simp [Wr.check] at hb
  | true =>
    rw [hm] at hb
    simp only [Wr.check, ↓reduceIte, Wr.eval_ret, Prod.mk.injEq, true_and] at hb
    subst hb
    exact Reads.ret _

theorem DefaultDemixingInfo.rt (g : LebGen) (d : DefaultDemixingInfo) : RT g d.write DefaultDemixingInfo.read d := by
  unfold DefaultDemixingInfo.write DefaultDemixingInfo.read
  simp only [Wr.bind_eq, Rd.bind_eq, Rd.pure_eq]
  exact (DemixingInfo.rt g _).seq ((rt_U8_4 g _).seq ((rt_U8_4 g _).map rfl))

theorem MixGainData.rt (g : LebGen) (d : MixGainData) : RT g d.write MixGainData.read d := by
  unfold MixGainData.read
  cases d with
  | step s =>
    refine (rt_Uleb g 0).seq ?_
    rw [if_pos rfl]; rt_auto
  | linear s e =>
    refine (rt_Uleb g 1).seq ?_
    rw [if_neg (by decide), if_pos rfl]; rt_auto
  | bezier s e c t =>
    refine (rt_Uleb g 2).seq ?_
    rw [if_neg (by decide), if_neg (by decide), if_pos rfl]; rt_auto

/-- Gains whose flag bit is clear are not transmitted; a reader returns zero. -/
def maskGains (flag : UInt32) : List UInt8 → UInt32 → List UInt8
  | [], _ => []
  | x :: xs, mask => (if flag &&& mask ≠ 0 then x else 0) :: maskGains flag xs (mask <<< 1)

theorem rt_reconGains (g : LebGen) (flag : UInt32) (l : List UInt8) (mask : UInt32) :
    RT g (wReconGains flag l mask) (rReconGains flag l.length mask) (maskGains flag l mask) := by
  induction l generalizing mask with
  | nil => exact RT.ret g _
  | cons x xs ih =>
    simp only [wReconGains, rReconGains, List.length_cons, maskGains]
    by_cases h : flag &&& mask ≠ 0
    · simp only [if_pos h]
      exact (rt_U8_8 g x).seq ((ih _).map rfl)
    · simp only [if_neg h]
      exact (RT.ret g (0 : UInt8)).seq ((ih _).map rfl)

theorem maskGains_eq (flag : UInt32) (l : List UInt8) (k : Nat) (hk : k + l.length ≤ 32) (mask : UInt32)
    (hm : mask.toNat = 2 ^ k % 4294967296) :
    maskGains flag l mask = l.mapIdx fun i x => if flag.toNat.testBit (k + i) then x else 0 := by
  induction l generalizing k mask with
  | nil => rfl
  | cons x xs ih =>
    simp only [List.length_cons] at hk
    have hlt : 2 ^ k < 4294967296 := by
      have : 2 ^ k ≤ 2 ^ 31 := Nat.pow_le_pow_right (by omega) (by omega)
      omega
    rw [Nat.mod_eq_of_lt hlt] at hm
    rw [maskGains, List.mapIdx_cons, ih (k + 1) (by omega)]
    · have e0 : (flag &&& mask ≠ 0) ↔ flag.toNat.testBit (k + 0) = true := by
        rw [Nat.add_zero]
        have e1 : (flag &&& mask).toNat = 2 ^ k * (flag.toNat.testBit k).toNat := by
          rw [UInt32.toNat_and, hm]
          apply Nat.eq_of_testBit_eq
          intro i
          rw [Nat.testBit_and, Nat.testBit_two_pow]
          cases hb : flag.toNat.testBit k with
          | true =>
            rw [Bool.toNat_true, Nat.mul_one, Nat.testBit_two_pow]
            by_cases hi : k = i
            · subst hi; simp [hb]
            · simp [hi]
          | false =>
            rw [Bool.toNat_false, Nat.mul_zero, Nat.zero_testBit]
            by_cases hi : k = i
            · subst hi; simp [hb]
            · simp [hi]
        constructor
        · intro h
          cases hb : flag.toNat.testBit k with
          | true => rfl
          | false =>
            rw [hb] at e1
            exact absurd (UInt32.toNat_inj.mp (by simpa using e1)) h
        · intro h he
          rw [h, he] at e1
          have := Nat.two_pow_pos k
          simp at e1
          omega
      congr 1
      · by_cases hb : flag &&& mask ≠ 0
        · rw [if_pos hb, if_pos (e0.mp hb)]
        · rw [if_neg hb, if_neg (fun h => hb (e0.mpr h))]
      · apply List.ext_getElem
        · simp
        · intro i h1 h2
          simp only [List.getElem_mapIdx]
          rw [show k + 1 + i = k + (i + 1) by omega]
    · rw [UInt32.toNat_shiftLeft, hm, Nat.shiftLeft_eq, Nat.pow_succ]
      rfl

/-- What is transmitted of a layer: nothing if it is not present, and only the gains whose flag bit is set. -/
def keptLayer (present : Bool) (e : Option ReconGainElement) : Option ReconGainElement :=
  if present then e.map fun e => ⟨e.flag, e.gains.mapIdx fun i x => if e.flag.toNat.testBit i then x else 0⟩ else none

/-- What is transmitted of a list of layers. -/
def normLayers (fs : List Bool) (es : List (Option ReconGainElement)) : List (Option ReconGainElement) :=
  List.zipWith keptLayer fs es

theorem rt_reconLayers (g : LebGen) (fs : List Bool) (es : List (Option ReconGainElement))
    (hl : es.length = fs.length) (hg : ∀ e ∈ es, ∀ x, e = some x → x.gains.length = 12) :
    RT g (wReconLayers fs es) (rReconGainInfo fs) (normLayers fs es) := by
  induction fs generalizing es with
  | nil =>
    match es with
    | [] => exact RT.ret g _
    | _ :: _ => simp at hl
  | cons f fs ih =>
    match es, f with
    | [], _ => simp at hl
    | e :: es, false =>
      exact (ih es (by simpa using hl) fun x hx => hg x (by simp [hx])).map rfl
    | some e :: es, true =>
      simp only [wReconLayers, rReconGainInfo, normLayers, List.zipWith_cons_cons]
      have h12 := hg (some e) (by simp) e rfl
      have hgains := rt_reconGains g e.flag e.gains 1
      rw [maskGains_eq e.flag e.gains 0 (by omega) 1 rfl, h12] at hgains
      simp only [Nat.zero_add] at hgains
      have htail := ih es (by simpa using hl) fun x hx => hg x (by simp [hx])
      exact (rt_Uleb g _).seq (hgains.seq (htail.map rfl))
    | none :: es, true =>
      intro bs hb
      simp [wReconLayers] at hb

theorem rt_sized (g : LebGen) (l : List UInt8) (hl : l.length ≤ 2097152) : RT g (wSized l) rSized l := by
  unfold wSized rSized
  simp only [Wr.bind_eq, Rd.bind_eq]
  have hn : (UInt32.ofNat l.length).toNat = l.length := by rw [UInt32.toNat_ofNat']; omega
  refine (rt_Uleb g _).seq (RT.checkR ?_ ?_)
  · simp only [hn, kEntireObuSizeMaxTwoMegabytes, Bool.not_eq_true', decide_eq_false_iff_not]; omega
  · rw [hn]; exact rt_Bytes g l

/-- Size of what `wSized` emits. -/
theorem wSized_len {g : LebGen} {l : List UInt8} {bs : Bits} (h : (wSized l).eval g = (.ok (), bs)) :
    8 * l.length ≤ bs.length := by
  unfold wSized at h
  rw [Wr.bind_eq, Wr.eval_bind_ok] at h
  obtain ⟨_, b1, b2, -, h2, rfl⟩ := h
  have := wBytes_ok h2
  subst this
  simp

/-- Round trip of a parameter data object under the definition that created it. -/
theorem rt_reconGainInfo (g : LebGen) (fs : List Bool) (es : List (Option ReconGainElement))
    (hg : ∀ e ∈ es, ∀ x, e = some x → x.gains.length = 12) :
    RT g (wReconGainInfo fs es) (rReconGainInfo fs) (normLayers fs es) := by
  unfold wReconGainInfo
  refine RT.checkW fun hl => ?_
  simp only [beq_iff_eq] at hl
  exact rt_reconLayers g fs es hl hg

/-! ### Parameter definitions -/

theorem clip16_range (v lo hi : Int16) (h : lo.toInt ≤ hi.toInt) :
    lo.toInt ≤ (clip16 v lo hi).toInt ∧ (clip16 v lo hi).toInt ≤ hi.toInt := by
  unfold clip16
  split
  · omega
  · split <;> omega

theorem clip16_idem (v lo hi : Int16) (h : lo.toInt ≤ hi.toInt) : clip16 (clip16 v lo hi) lo hi = clip16 v lo hi := by
  have := clip16_range v lo hi h
  generalize hx : clip16 v lo hi = x at this
  unfold clip16
  rw [if_neg (by omega), if_neg (by omega)]

theorem clip8_idem (v : Int8) : clip8 (clip8 v (-90) 90) (-90) 90 = clip8 v (-90) 90 := by
  have key : ∀ b : Fin 256, clip8 (clip8 (Int8.ofInt b.val) (-90) 90) (-90) 90 = clip8 (Int8.ofInt b.val) (-90) 90 := by
    decide +kernel
  have := key ⟨v.toBitVec.toNat, v.toBitVec.isLt⟩
  have e : Int8.ofInt (v.toBitVec.toNat : Int) = v := by
    apply Int8.toBitVec_inj.mp
    apply BitVec.eq_of_toNat_eq
    rw [Int8.toBitVec_ofInt]
    have := v.toBitVec.isLt
    simp only [BitVec.toNat_ofInt]
    omega
  simp only [e] at this
  exact this

/-- What survives writing: positions are clipped on writing, recon gain auxiliary data is not transmitted,
an extended definition transmits only its bytes. -/
def ParamSpecific.normalized : ParamSpecific → ParamSpecific
  | .reconGain _ => .reconGain []
  | .polar a e d => .polar (clip16 a (-180) 180) (clip8 e (-90) 90) d
  | .dualPolar a1 e1 d1 a2 e2 d2 => .dualPolar (clip16 a1 (-180) 180) (clip8 e1 (-90) 90) d1
      (clip16 a2 (-180) 180) (clip8 e2 (-90) 90) d2
  | s => s

theorem rt_paramBase (g : LebGen) (p : ParamDef) (hs : ∀ s, p.base.schedule = some s → s.Made) :
    RT g p.writeBase (rParamBase p.spec.type) p.base := by
  unfold ParamDef.writeBase rParamBase
  simp only [Wr.bind_eq, Wr.pure_eq, Rd.bind_eq, Rd.pure_eq]
  refine RT.checkW fun hv => ?_
  refine (rt_Uleb g _).seq ((rt_Uleb g _).seq ?_)
  obtain ⟨⟨id, rate, reserved, schedule⟩, spec⟩ := p
  cases schedule with
  | none =>
    refine (rt_U8_1 g _).seq ((rt_U8_7 g _).seq ?_)
    simp only [Option.isSome_none, Bool.false_eq_true, ↓reduceIte]
    exact RT.ret g _
  | some s =>
    refine (rt_U8_1 g _).seq ((rt_U8_7 g _).seq ?_)
    simp only [Option.isSome_some, ↓reduceIte, ne_eq, not_true_eq_false]
    refine (SubblockSchedule.rt g s (hs s rfl)).map ?_
    have : (rate != 0 && (if spec.type == 1 || spec.type == 2 then
        s.duration != 0 && s.constantSubblockDuration == s.duration else true)) = true := by
      simp only [ParamDef.valid, ParamBase.duration, ParamBase.csd, Option.isSome_some, Bool.true_and] at hv
      exact hv
    rw [this]
    rfl

private theorem rt_polar (g : LebGen) (a : Int16) (e : Int8) (d : UInt8) :
    RT g ((wS9 (clip16 a (-180) 180)).bind fun _ => (wS8 (clip8 e (-90) 90)).bind fun _ => wU8 d 7) rPolar
      (clip16 a (-180) 180, clip8 e (-90) 90, d) := by
  unfold rPolar
  simp only [Rd.bind_eq, Rd.pure_eq]
  refine (rt_S9 g _).seq ((rt_S8 g _).seq ((rt_U8_7 g d).map ?_))
  rw [clip16_idem _ _ _ (by decide), clip8_idem]

private theorem ps3 : rParamSpecific 3 = rPolar.bind fun p => .ret (.polar p.1 p.2.1 p.2.2) := by
  unfold rParamSpecific
  rw [if_neg (by decide), if_neg (by decide), if_neg (by decide), if_pos (by decide)]; rfl
private theorem ps6 : rParamSpecific 6 = rPolar.bind fun p => rPolar.bind fun q =>
    .ret (.dualPolar p.1 p.2.1 p.2.2 q.1 q.2.1 q.2.2) := by
  unfold rParamSpecific
  rw [if_neg (by decide), if_neg (by decide), if_neg (by decide), if_neg (by decide), if_neg (by decide),
    if_neg (by decide), if_pos (by decide)]; rfl

private theorem rt_ps3 (g : LebGen) (a : Int16) (e : Int8) (d : UInt8) :
    RT g (ParamSpecific.polar a e d).write (rParamSpecific 3) (ParamSpecific.polar a e d).normalized := by
  rw [ps3]
  unfold ParamSpecific.write ParamSpecific.normalized
  simp only [Wr.bind_eq]
  exact (rt_polar g a e d).map rfl

theorem RT.seqAssoc3 {α β : Type} {g : LebGen} {w1 w2 w3 w4 : Wr Unit} {r : Rd α} {f : α → Rd β} {a : α} {b : β}
    (h1 : RT g (w1.bind fun _ => w2.bind fun _ => w3) r a) (h2 : RT g w4 (f a) b) :
    RT g (w1.bind fun _ => w2.bind fun _ => w3.bind fun _ => w4) (r.bind f) b := by
  intro bs hb
  rw [Wr.eval_bind_ok] at hb
  obtain ⟨u, b1, b2, e1, e2, rfl⟩ := hb
  rw [Wr.eval_bind_ok] at e2
  obtain ⟨u2, b3, b4, e3, e4, rfl⟩ := e2
  rw [Wr.eval_bind_ok] at e4
  obtain ⟨u3, b5, b6, e5, e6, rfl⟩ := e4
  have := (h1 (b1 ++ (b3 ++ b5)) (Wr.eval_bind_ok.mpr ⟨u, b1, b3 ++ b5, e1,
    Wr.eval_bind_ok.mpr ⟨u2, b3, b5, e3, e5, rfl⟩, rfl⟩)).bind (h2 b6 e6)
  simpa only [List.append_assoc] using this

private theorem rt_ps6 (g : LebGen) (a1 : Int16) (e1 : Int8) (d1 : UInt8) (a2 : Int16) (e2 : Int8) (d2 : UInt8) :
    RT g (ParamSpecific.dualPolar a1 e1 d1 a2 e2 d2).write (rParamSpecific 6)
      (ParamSpecific.dualPolar a1 e1 d1 a2 e2 d2).normalized := by
  rw [ps6]
  unfold ParamSpecific.write ParamSpecific.normalized
  simp only [Wr.bind_eq]
  have h2 := (rt_polar g a2 e2 d2).map (f := fun q => Rd.ret (ParamSpecific.dualPolar (clip16 a1 (-180) 180)
      (clip8 e1 (-90) 90) d1 q.1 q.2.1 q.2.2)) rfl
  exact RT.seqAssoc3 (rt_polar g a1 e1 d1) h2

private theorem ps4 : rParamSpecific 4 = rS8.bind fun x => rS8.bind fun y => rS8.bind fun z =>
    .ret (.cart8 x y z) := by
  unfold rParamSpecific
  rw [if_neg (by decide), if_neg (by decide), if_neg (by decide), if_neg (by decide), if_pos (by decide)]; rfl
private theorem rt_ps4 (g : LebGen) (x y z : Int8) :
    RT g (ParamSpecific.cart8 x y z).write (rParamSpecific 4) (ParamSpecific.cart8 x y z).normalized := by
  rw [ps4]
  unfold ParamSpecific.write ParamSpecific.normalized
  simp only [Wr.bind_eq]
  exact (rt_S8 g x).seq ((rt_S8 g y).seq ((rt_S8 g z).map rfl))

private theorem ps5 : rParamSpecific 5 = rS16.bind fun x => rS16.bind fun y => rS16.bind fun z =>
    .ret (.cart16 x y z) := by
  unfold rParamSpecific
  rw [if_neg (by decide), if_neg (by decide), if_neg (by decide), if_neg (by decide), if_neg (by decide), if_pos (by decide)]; rfl
private theorem rt_ps5 (g : LebGen) (x y z : Int16) :
    RT g (ParamSpecific.cart16 x y z).write (rParamSpecific 5) (ParamSpecific.cart16 x y z).normalized := by
  rw [ps5]
  unfold ParamSpecific.write ParamSpecific.normalized
  simp only [Wr.bind_eq]
  exact (rt_S16 g x).seq ((rt_S16 g y).seq ((rt_S16 g z).map rfl))

private theorem ps7 : rParamSpecific 7 = rS8.bind fun x => rS8.bind fun y => rS8.bind fun z => rS8.bind fun x2 => rS8.bind fun y2 => rS8.bind fun z2 =>
    .ret (.dualCart8 x y z x2 y2 z2) := by
  unfold rParamSpecific
  rw [if_neg (by decide), if_neg (by decide), if_neg (by decide), if_neg (by decide), if_neg (by decide), if_neg (by decide), if_neg (by decide), if_pos (by decide)]; rfl
private theorem rt_ps7 (g : LebGen) (x y z x2 y2 z2 : Int8) :
    RT g (ParamSpecific.dualCart8 x y z x2 y2 z2).write (rParamSpecific 7) (ParamSpecific.dualCart8 x y z x2 y2 z2).normalized := by
  rw [ps7]
  unfold ParamSpecific.write ParamSpecific.normalized
  simp only [Wr.bind_eq]
  exact (rt_S8 g x).seq ((rt_S8 g y).seq ((rt_S8 g z).seq ((rt_S8 g x2).seq ((rt_S8 g y2).seq ((rt_S8 g z2).map rfl)))))

private theorem ps8 : rParamSpecific 8 = rS16.bind fun x => rS16.bind fun y => rS16.bind fun z => rS16.bind fun x2 => rS16.bind fun y2 => rS16.bind fun z2 =>
    .ret (.dualCart16 x y z x2 y2 z2) := by
  unfold rParamSpecific
  rw [if_neg (by decide), if_neg (by decide), if_neg (by decide), if_neg (by decide), if_neg (by decide), if_neg (by decide), if_neg (by decide), if_neg (by decide)]; rfl
private theorem rt_ps8 (g : LebGen) (x y z x2 y2 z2 : Int16) :
    RT g (ParamSpecific.dualCart16 x y z x2 y2 z2).write (rParamSpecific 8) (ParamSpecific.dualCart16 x y z x2 y2 z2).normalized := by
  rw [ps8]
  unfold ParamSpecific.write ParamSpecific.normalized
  simp only [Wr.bind_eq]
  exact (rt_S16 g x).seq ((rt_S16 g y).seq ((rt_S16 g z).seq ((rt_S16 g x2).seq ((rt_S16 g y2).seq ((rt_S16 g z2).map rfl)))))

theorem rt_paramSpecific (g : LebGen) (s : ParamSpecific) (he : ∀ t b, s ≠ .extended t b) :
    RT g s.write (rParamSpecific s.type) s.normalized := by
  cases s with
  | polar a e d => exact rt_ps3 g a e d
  | dualPolar a1 e1 d1 a2 e2 d2 => exact rt_ps6 g a1 e1 d1 a2 e2 d2
  | extended t b => exact absurd rfl (he t b)
  | mixGain x =>
    simp only [ParamSpecific.type, ParamSpecific.write, ParamSpecific.normalized]
    unfold rParamSpecific
    rw [if_pos (by decide)]
    rt_auto
  | demixing d =>
    simp only [ParamSpecific.type, ParamSpecific.write, ParamSpecific.normalized]
    unfold rParamSpecific
    rw [if_neg (by decide), if_pos (by decide)]
    exact (DefaultDemixingInfo.rt g d).map rfl
  | reconGain fl =>
    simp only [ParamSpecific.type, ParamSpecific.write, ParamSpecific.normalized]
    unfold rParamSpecific
    rw [if_neg (by decide), if_neg (by decide), if_pos (by decide)]
    exact RT.ret g _
  | cart8 x y z => exact rt_ps4 g x y z
  | cart16 x y z => exact rt_ps5 g x y z
  | dualCart8 x y z x2 y2 z2 => exact rt_ps7 g x y z x2 y2 z2
  | dualCart16 x y z x2 y2 z2 => exact rt_ps8 g x y z x2 y2 z2

/-- The definition a reader recovers. -/
def ParamDef.normalized (p : ParamDef) : ParamDef :=
  match p.spec with
  | .extended t b => ⟨ParamBase.default, .extended t b⟩
  | s => ⟨p.base, s.normalized⟩

/-- Every schedule inside a definition comes from a factory. -/
def ParamDef.Made (p : ParamDef) : Prop := ∀ s, p.base.schedule = some s → s.Made

theorem rt_paramDef (g : LebGen) (p : ParamDef) (hm : p.Made) (he : ∀ t b, p.spec ≠ .extended t b) :
    RT g p.write (rParamDef p.spec.type) p.normalized := by
  have hn : p.normalized = ⟨p.base, p.spec.normalized⟩ := by
    obtain ⟨b, s⟩ := p
    cases s <;> first | rfl | exact absurd rfl (he _ _)
  have hw : p.write = p.writeBase.bind fun _ => p.spec.write := by
    obtain ⟨b, s⟩ := p
    cases s <;> first | rfl | exact absurd rfl (he _ _)
  rw [hn, hw]
  unfold rParamDef
  exact (rt_paramBase g p hm).seq ((rt_paramSpecific g p.spec he).map rfl)

theorem rt_extendedParamDef (g : LebGen) (b : ParamBase) (t : UInt32) (bytes : List UInt8) (hl : bytes.length ≤ 2097152) :
    RT g (ParamDef.write ⟨b, .extended t bytes⟩) (rExtendedParamDef t) ⟨ParamBase.default, .extended t bytes⟩ :=
  (rt_sized g bytes hl).map rfl

/-! ### Parameter blocks -/

/-- The data a reader recovers: gains that are not flagged are not transmitted. -/
def ParamData.normalized : ParamData → ParamData
  | .reconGain flags es => .reconGain flags (normLayers flags es)
  | d => d

/-- The data objects that belong to a definition (the `static_cast`s of the code rely on this). -/
def ParamData.Matches : ParamSpecific → ParamData → Prop
  | .mixGain _, .mixGain _ => True
  | .demixing _, .demixing _ => True
  | .reconGain flags, .reconGain flags' es => flags' = flags ∧ ∀ e ∈ es, ∀ x, e = some x → x.gains.length = 12
  | .extended _ _, .extension bytes => bytes.length ≤ 2097152
  | .polar .., .unsupported => True
  | .cart8 .., .unsupported => True
  | .cart16 .., .unsupported => True
  | .dualPolar .., .unsupported => True
  | .dualCart8 .., .unsupported => True
  | .dualCart16 .., .unsupported => True
  | _, _ => False

theorem rt_paramData (g : LebGen) (s : ParamSpecific) (d : ParamData) (h : d.Matches s) :
    RT g d.write (rParamData s) d.normalized := by
  have hun : ∀ r : Rd ParamData, RT g (ParamData.write .unsupported) r (ParamData.normalized .unsupported) := by
    intro r bs hb
    simp [ParamData.write] at hb
  cases d with
  | mixGain d =>
    cases s with
    | mixGain _ => exact (MixGainData.rt g d).map rfl
    | _ => exact h.elim
  | demixing d =>
    cases s with
    | demixing _ => exact (DemixingInfo.rt g d).map rfl
    | _ => exact h.elim
  | reconGain fl es =>
    cases s with
    | reconGain _ =>
      obtain ⟨rfl, h2⟩ := h
      exact (rt_reconGainInfo g _ es h2).map rfl
    | _ => exact h.elim
  | extension b =>
    cases s with
    | extended _ _ => exact (rt_sized g b h).map rfl
    | _ => exact h.elim
  | unsupported => exact hun _

theorem ParameterBlock.rt (g : LebGen) (p : ParamDef) (b : ParameterBlock) (data : List ParamData) (footer : List UInt8)
    (hid : b.parameterId = p.base.id) (hsub : b.subblocks = data.map some)
    (hmode : ∀ s, p.base.schedule = some s → b.schedule = none ∧ data.length = s.numSubblocks.toNat)
    (hmode1 : p.base.schedule = none → ∃ s, b.schedule = some s ∧ s.Made)
    (hdata : ∀ d ∈ data, d.Matches p.spec) :
    RTPayload g (b.write p) (ParameterBlock.read p) footer
      ⟨b.parameterId, b.schedule, (data.map ParamData.normalized).map some⟩ := by
  intro bs hb _ _
  suffices h : ∀ n, RT g (b.write p) (ParameterBlock.read p n)
      ⟨b.parameterId, b.schedule, (data.map ParamData.normalized).map some⟩ from h _ bs hb
  intro n
  unfold ParameterBlock.write ParameterBlock.read
  simp only [Wr.bind_eq, Rd.bind_eq, Rd.pure_eq]
  intro bs hb
  rw [Wr.eval_bind_ok] at hb
  obtain ⟨_, b1, b2, h1, h2, rfl⟩ := hb
  obtain ⟨hv, h2⟩ := Wr.check_bind_ok h2
  rw [hv]
  have hck : ∀ (f : Unit → Rd ParameterBlock), (Rd.check true).bind f = f () := fun f => rfl
  rw [hck]
  refine (rt_Uleb g _ b1 h1).bind ?_
  rw [hid, beq_self_eq_true, hck]
  cases hsch : p.base.schedule with
  | some s =>
    obtain ⟨hns, hlen⟩ := hmode s hsch
    rw [hns] at h2 ⊢
    simp only at h2 ⊢
    rw [hsub] at h2
    have hall : wAll wSubblock (data.map some) = wAll id ((data.map fun d => (d.write, d.normalized)).map Prod.fst) := by
      clear h2 hdata hsub hmode hlen
      induction data with
      | nil => rfl
      | cons d ds ih => simp only [List.map_cons, wAll, id]; rw [ih]; rfl
    rw [hall] at h2
    have := (rt_rep2 g (rParamData p.spec) (data.map fun d => (d.write, d.normalized)) (by
      intro q hq
      rw [List.mem_map] at hq
      obtain ⟨d, hd, rfl⟩ := hq
      exact rt_paramData g p.spec d (hdata d hd))).map
        (f := fun l => Rd.ret (⟨p.base.id, none, l.map some⟩ : ParameterBlock)) rfl b2 h2
    simp only [List.length_map, hlen, List.map_map] at this ⊢
    exact this
  | none =>
    obtain ⟨s, hs, hsm⟩ := hmode1 hsch
    rw [hs] at h2 ⊢
    simp only at h2 ⊢
    rw [hsub] at h2
    have hall : (data.map some).map wSubblockChecked = ((data.map fun d => (d.write, d.normalized)).map Prod.fst) := by
      simp only [List.map_map]; rfl
    rw [hall] at h2
    have := (SubblockSchedule.rt_data g s hsm (rParamData p.spec) (data.map fun d => (d.write, d.normalized)) (by
      intro q hq
      rw [List.mem_map] at hq
      obtain ⟨d, hd, rfl⟩ := hq
      exact rt_paramData g p.spec d (hdata d hd))).map
        (f := fun sl => Rd.ret (⟨p.base.id, some sl.1, sl.2.map some⟩ : ParameterBlock)) rfl b2 h2
    simp only [List.map_map] at this ⊢
    exact this

/-! ### Safety and stability -/

theorem sf_reconGains (flag : UInt32) (n : Nat) (mask : UInt32) : Sf (rReconGains flag n mask) (fun l => l.length = n) := by
  induction n generalizing mask with
  | zero => exact Sf.ret rfl
  | succ n ih =>
    refine Sf.bind (Q := fun _ => True) (Sf.ite (fun _ => (Sf.u8 8).any) (fun _ => Sf.ret trivial)) fun x _ => ?_
    exact (ih _).bind fun xs h => Sf.ret (by simp [h])
theorem stable_reconGains (flag : UInt32) (n : Nat) (mask : UInt32) : Stable (rReconGains flag n mask) := by
  induction n generalizing mask with
  | zero => exact Stable.ret _
  | succ n ih =>
    exact Stable.bind (Stable.ite (fun _ => Stable.u8 8) (fun _ => Stable.ret _)) fun x =>
      (ih _).bind fun xs => Stable.ret _
theorem sf_reconGainInfo (fs : List Bool) : Sf (rReconGainInfo fs)
    (fun l => l.length = fs.length ∧ ∀ e ∈ l, ∀ x, e = some x → x.gains.length = 12) := by
  induction fs with
  | nil => exact Sf.ret (by simp)
  | cons f fs ih =>
    cases f with
    | false =>
      refine ih.bind fun es h => Sf.ret ⟨by simp [h.1], ?_⟩
      intro e he x hx
      simp only [List.mem_cons] at he
      rcases he with rfl | he
      · simp at hx
      · exact h.2 e he x hx
    | true =>
      refine Sf.uleb.bind fun fl _ => (sf_reconGains fl _ 1).bind fun gs hg => ih.bind fun es h => Sf.ret ⟨by simp [h.1], ?_⟩
      intro e he x hx
      simp only [List.mem_cons] at he
      rcases he with rfl | he
      · simp only [Option.some.injEq] at hx; subst hx; exact hg
      · exact h.2 e he x hx
theorem stable_reconGainInfo (fs : List Bool) : Stable (rReconGainInfo fs) := by
  induction fs with
  | nil => exact Stable.ret _
  | cons f fs ih =>
    cases f with
    | false => exact ih.bind fun es => Stable.ret _
    | true => exact Stable.uleb.bind fun fl => (stable_reconGains fl _ 1).bind fun gs => ih.bind fun es => Stable.ret _

theorem sf_sized : Sf rSized (fun l => l.length ≤ 2097152) := by
  unfold rSized
  refine Sf.uleb.bind fun n _ => (Sf.check rfl).bind fun _ h => (Sf.bytes _).weaken fun l hl => ?_
  have h := h
  simp only [kEntireObuSizeMaxTwoMegabytes, Bool.not_eq_true', decide_eq_false_iff_not, gt_iff_lt, Nat.not_lt] at h
  rw [hl]; exact h
theorem stable_sized : Stable rSized := by unfold rSized; stable_auto

macro_rules | `(tactic| sf_leaf) => `(tactic| exact Sf.any sf_sized)
macro_rules | `(tactic| stable_leaf) => `(tactic| exact stable_sized)
macro_rules | `(tactic| sf_leaf) => `(tactic| exact Sf.any SubblockSchedule.sf_read)
macro_rules | `(tactic| stable_leaf) => `(tactic| exact SubblockSchedule.stable_read)
macro_rules | `(tactic| sf_leaf) => `(tactic| exact Sf.any (sf_reconGainInfo _))
macro_rules | `(tactic| stable_leaf) => `(tactic| exact stable_reconGainInfo _)

theorem DemixingInfo.sf : Sf DemixingInfo.read (fun d => dmixpModeSupported d.dmixpMode = true ∧ d.reserved.toNat < 32) := by
  unfold DemixingInfo.read
  exact (Sf.u8 3).bind fun m _ => (Sf.u8 5).bind fun r hr => (Sf.check rfl).bind fun _ h => Sf.ret ⟨h, hr⟩
theorem DemixingInfo.stable : Stable DemixingInfo.read := by unfold DemixingInfo.read; stable_auto
macro_rules | `(tactic| sf_leaf) => `(tactic| exact Sf.any DemixingInfo.sf)
macro_rules | `(tactic| stable_leaf) => `(tactic| exact DemixingInfo.stable)
theorem DefaultDemixingInfo.sf : Sf DefaultDemixingInfo.read
    (fun d => dmixpModeSupported d.info.dmixpMode = true ∧ d.defaultW.toNat < 16) := by
  unfold DefaultDemixingInfo.read
  exact DemixingInfo.sf.bind fun m hm => (Sf.u8 4).bind fun w hw => (Sf.u8 4).bind fun _ _ => Sf.ret ⟨hm.1, hw⟩
theorem DefaultDemixingInfo.stable : Stable DefaultDemixingInfo.read := by unfold DefaultDemixingInfo.read; stable_auto
macro_rules | `(tactic| sf_leaf) => `(tactic| exact Sf.any DefaultDemixingInfo.sf)
macro_rules | `(tactic| stable_leaf) => `(tactic| exact DefaultDemixingInfo.stable)
theorem MixGainData.sf : Sf MixGainData.read (fun _ => True) := by unfold MixGainData.read; sf_auto
theorem MixGainData.stable : Stable MixGainData.read := by unfold MixGainData.read; stable_auto
macro_rules | `(tactic| sf_leaf) => `(tactic| exact MixGainData.sf)
macro_rules | `(tactic| stable_leaf) => `(tactic| exact MixGainData.stable)

theorem sf_paramBase (t : UInt32) : Sf (rParamBase t) (fun b => ∀ s, b.schedule = some s → s.Made) := by
  unfold rParamBase
  refine Sf.uleb.bind fun id _ => Sf.uleb.bind fun rate _ => (Sf.u8 1).bind fun m _ => (Sf.u8 7).bind fun r _ => ?_
  refine Sf.ite (fun _ => Sf.ret (by simp)) (fun _ => ?_)
  refine SubblockSchedule.sf_read.bind fun s hs => (Sf.check rfl).bind fun _ _ => Sf.ret ?_
  intro s' he
  simp only [Option.some.injEq] at he
  subst he; exact hs
theorem stable_paramBase (t : UInt32) : Stable (rParamBase t) := by unfold rParamBase; stable_auto

theorem sf_paramSpecific (t : UInt32) : Sf (rParamSpecific t) (fun _ => True) := by
  unfold rParamSpecific rPolar; sf_auto
theorem stable_paramSpecific (t : UInt32) : Stable (rParamSpecific t) := by
  unfold rParamSpecific rPolar; stable_auto

theorem sf_paramDef (t : UInt32) : Sf (rParamDef t) ParamDef.Made := by
  unfold rParamDef
  exact (sf_paramBase t).bind fun b hb => (sf_paramSpecific t).bind fun s _ => Sf.ret hb
theorem stable_paramDef (t : UInt32) : Stable (rParamDef t) := by
  unfold rParamDef
  exact (stable_paramBase t).bind fun b => (stable_paramSpecific t).bind fun s => Stable.ret _
theorem sf_extendedParamDef (t : UInt32) : Sf (rExtendedParamDef t) ParamDef.Made := by
  unfold rExtendedParamDef
  exact sf_sized.bind fun b _ => Sf.ret (by intro s hs; simp [ParamBase.default] at hs)
theorem stable_extendedParamDef (t : UInt32) : Stable (rExtendedParamDef t) := by
  unfold rExtendedParamDef; stable_auto
macro_rules | `(tactic| sf_leaf) => `(tactic| exact Sf.any (sf_paramDef _))
macro_rules | `(tactic| stable_leaf) => `(tactic| exact stable_paramDef _)
macro_rules | `(tactic| sf_leaf) => `(tactic| exact Sf.any (sf_extendedParamDef _))
macro_rules | `(tactic| stable_leaf) => `(tactic| exact stable_extendedParamDef _)

theorem sf_paramData (s : ParamSpecific) : Sf (rParamData s) (fun d => d.Matches s) := by
  cases s with
  | mixGain x => exact MixGainData.sf.bind fun d _ => Sf.ret trivial
  | demixing x => exact DemixingInfo.sf.bind fun d _ => Sf.ret trivial
  | reconGain fl => exact (sf_reconGainInfo fl).bind fun es h => Sf.ret ⟨rfl, h.2⟩
  | extended t b => exact sf_sized.bind fun l hl => Sf.ret hl
  | polar => exact Sf.fail rfl
  | cart8 => exact Sf.fail rfl
  | cart16 => exact Sf.fail rfl
  | dualPolar => exact Sf.fail rfl
  | dualCart8 => exact Sf.fail rfl
  | dualCart16 => exact Sf.fail rfl
theorem stable_paramData (s : ParamSpecific) : Stable (rParamData s) := by
  unfold rParamData; stable_auto

/-- A block that was read belongs to its definition. -/
theorem ParameterBlock.sf (p : ParamDef) (n : Int) : Sf (ParameterBlock.read p n)
    (fun b => b.parameterId = p.base.id ∧ p.valid = true ∧
      ∃ data : List ParamData, b.subblocks = data.map some ∧ (∀ d ∈ data, d.Matches p.spec) ∧
      (∀ s, p.base.schedule = some s → b.schedule = none ∧ data.length = s.numSubblocks.toNat) ∧
      (p.base.schedule = none → ∃ s, b.schedule = some s ∧ s.Made ∧ data.length = s.numSubblocks.toNat)) := by
  unfold ParameterBlock.read
  refine (Sf.check rfl).bind fun _ hv => Sf.uleb.bind fun id _ => (Sf.check rfl).bind fun _ hid => ?_
  cases hs : p.base.schedule with
  | some s =>
    refine (Sf.rep (sf_paramData p.spec) _).bind fun l hl => Sf.ret ⟨rfl, hv, l, rfl, hl.2, ?_, by simp⟩
    intro s' he
    simp only [Option.some.injEq] at he
    subst he; exact ⟨rfl, hl.1⟩
  | none =>
    refine (SubblockSchedule.sf_parse (sf_paramData p.spec)).bind fun sl hsl => Sf.ret ⟨rfl, hv, sl.2, rfl, hsl.2.2, by simp, ?_⟩
    intro _
    exact ⟨sl.1, rfl, hsl.1, hsl.2.1⟩

theorem ParameterBlock.stable (p : ParamDef) (n : Int) : Stable (ParameterBlock.read p n) := by
  unfold ParameterBlock.read
  refine Stable.check.bind fun _ => Stable.uleb.bind fun id => Stable.check.bind fun _ => ?_
  split
  · exact (Stable.rep (stable_paramData p.spec) _).bind fun l => Stable.ret _
  · exact (SubblockSchedule.stable_parse (stable_paramData p.spec)).bind fun sl => Stable.ret _

end Iamf
