import Verif.Cli.DecoderForward
/-
  C25: how a stream is cut into pieces does not matter to what a decoder gives out.
-/
namespace Iamf.Props
open Iamf

variable {B : Backend}

/-! ### Specification -/

/-- The data that a history of calls pushes. -/
def fedBytes (cs : List DecoderCall) : List UInt8 :=
  (cs.map fun c => match c with
    | .decode bytes => bytes
    | _ => []).flatten

/-- The temporal units that a history of calls gives out: the bytes of each call that wrote any. -/
def given (results : List (Except Err (List UInt8))) : List (List UInt8) :=
  results.filterMap fun r => match r with
    | .ok [] => none
    | .ok (b :: bs) => some (b :: bs)
    | .error _ => none

/-- Every call returned OK. -/
def AllOk (results : List (Except Err (List UInt8))) : Prop := ∀ r ∈ results, ∃ o, r = .ok o

/-- A history of calls of a new decoder. -/
def decoding (B : Backend) (s : DecoderSettings) (pv : Bool) (cs : List DecoderCall) : List (Except Err (List UInt8)) × Decoder B :=
  Decoder.calls cs (Decoder.create s pv)

/-- There is nothing more to get out of the decoder: no unit is available, nor will one be however often the end is signalled. -/
def Drained (d : Decoder B) : Prop :=
  ∀ n, AllOk (d.calls (List.replicate n .signalEnd)).1 ∧ (d.calls (List.replicate n .signalEnd)).2.isUnitAvailable = false

/-- `S` has the descriptors `x` in its first `k` bytes: what is returned for `S`, and for any beginning of it for which descriptors
are returned.  (This is not so for every stream: see C21, which has a stream for which it depends on how much has arrived, and shows
it for streams that have been written OBU by OBU.) -/
structure HasDescriptors (S : List UInt8) (x : Descriptors) (k : Nat) : Prop where
  whole : ((parseDescriptors false).run (RBuf.create 1024 S true)).1 = .ok (some x)
  parts : ∀ P, P <+: S → P.length ≤ 4194304 → ∀ y, ((parseDescriptors false).run (RBuf.create 1024 P true)).1 = .ok (some y) →
    y = x ∧ ((parseDescriptors false).run (RBuf.create 1024 P true)).2.tell = 8 * k

/-- Data that is never refused while it arrives: for any beginning of it descriptors are returned or more is asked for. -/
def Arrives (S : List UInt8) : Prop := ∀ P, P <+: S → ∃ r, ((parseDescriptors false).run (RBuf.create 1024 P true)).1 = .ok r

/-- No data is pushed after the end has been signalled. -/
def EndsLast (cs : List DecoderCall) : Prop := ∀ before after, cs = before ++ .signalEnd :: after → fedBytes after = [] ∧ ∀ b, .decode b ∉ after

/-- The end is signalled and output is asked for, again and again. -/
def finish (n size : Nat) : List DecoderCall := (List.replicate n [.signalEnd, .getOutput size]).flatten

/-! ### Proof -/

theorem fedBytes_eq (cs : List DecoderCall) : fedBytes cs = cs.flatMap (·.fed) := by
  induction cs with
  | nil => rfl
  | cons c cs ih =>
    rw [List.flatMap_cons, ← ih]
    cases c <;> simp [fedBytes, DecoderCall.fed]

theorem given_eq (rs : List (Except Err (List UInt8))) : given rs = rs.filterMap (fun r => r.toOption.filter (!·.isEmpty)) := by
  unfold given
  congr 1
  funext r
  match r with
  | .ok [] => rfl
  | .ok (b :: bs) => rfl
  | .error e => rfl

theorem parse_create (P : List UInt8) :
    ((parseDescriptors false).run (RBuf.create 1024 P true)).1 = ((parseDescriptors false).runA ⟨bytesBits P, 0, true⟩).1 ∧
    ((parseDescriptors false).run (RBuf.create 1024 P true)).2.tell = ((parseDescriptors false).runA ⟨bytesBits P, 0, true⟩).2.pos := by
  obtain ⟨h1, h2, h3, h4⟩ := (parseDescriptors false).run_refines _ (RBuf.wf_create 1024 P true (.inl (by decide)))
  rw [RBuf.abs_create] at h1 h3
  refine ⟨h1, ?_⟩
  rw [← h3]
  have := h2.tell_nonneg
  simp only [RBuf.abs]
  omega

/-- A history that returns OK, on a beginning of `S`. -/
theorem history {s : DecoderSettings} {S E : List UInt8} {x : Descriptors} {k : Nat} {pv : Bool} {cs : List DecoderCall}
    (ha : s.android = false) (hS : HasDescriptors S x k) (hp : fedBytes cs ++ E = S) (hend : .signalEnd ∈ cs → E = [])
    (hok : AllOk (decoding B s pv cs).1) :
    (Waiting (fedBytes cs) (decoding B s pv cs).2 ∧ given (decoding B s pv cs).1 = []) ∨
    ∃ p0 : Processor B, initAll s x = .ok p0 ∧ ∃ p' taken,
      Running p0 p' (bytesBits (S.drop k)) (bytesBits E) taken (decoding B s pv cs).2 ∧
      given (decoding B s pv cs).1 = (taken.map (pcmOf s.sampleType)).filter (!·.isEmpty) ∧
      ∀ x ∈ taken, ∃ size, writeFrameToSpan x s.sampleType size = .ok (pcmOf s.sampleType x) := by
  rw [fedBytes_eq] at hp ⊢
  rw [given_eq]
  have h := Waiting.calls (B := B) (S := S) (P := []) (E := E) (x := x) (k := k) (d := Decoder.create s pv) cs (by rw [← hp]; rfl)
    (fun P h1 h2 y hy => by
      obtain ⟨q1, q2⟩ := parse_create P
      obtain ⟨r1, r2⟩ := hS.parts P h1 h2 y (by rw [q1]; exact hy)
      exact ⟨r1, by omega⟩)
    (Waiting.create ha pv) hend hok
  exact h

theorem complete_of_drained {s : DecoderSettings} {S : List UInt8} {x : Descriptors} {k : Nat} {pv : Bool} {cs : List DecoderCall}
    (ha : s.android = false) (hS : HasDescriptors S x k) (hp : fedBytes cs = S) (hok : AllOk (decoding B s pv cs).1)
    (hd : Drained (decoding B s pv cs).2) :
    ∃ p0 : Processor B, initAll s x = .ok p0 ∧ ∃ outs, Complete p0 (bytesBits (S.drop k)) outs ∧
      given (decoding B s pv cs).1 = (outs.map (pcmOf s.sampleType)).filter (!·.isEmpty) ∧
      ∀ x ∈ outs, ∃ size, writeFrameToSpan x s.sampleType size = .ok (pcmOf s.sampleType x) := by
  rcases history ha hS (E := []) (by rw [List.append_nil]; exact hp) (fun _ => rfl) hok with ⟨hw, -⟩ | ⟨p0, h0, p', taken, hr, hg, hwr⟩
  · exfalso
    have h1 := hS.whole
    rw [(parse_create S).1, ← hp] at h1
    rcases hw.asked with h2 | h2
    · rw [h2] at h1
      have : ((parseDescriptors false).runA ⟨bytesBits [], 0, true⟩).1 = .ok none := by decide +kernel
      rw [this] at h1
      simp at h1
    · rw [h2] at h1; simp at h1
  · exact ⟨p0, h0, taken, hr.drained hd, hg, hwr⟩

/-! ### Theorems -/

/-- **C25 (pieces).** Two decoders with the same settings (and no reordering of channels) that are given the same stream, cut
into pieces in any way and with calls for output in between in any way, give out the same temporal units, if all of their calls
return OK and there is nothing more to get out of either. -/
theorem C25_output_does_not_depend_on_pieces (B : Backend) (s : DecoderSettings) (ha : s.android = false) (S : List UInt8)
    (x : Descriptors) (k : Nat) (hS : HasDescriptors S x k) (cs1 cs2 : List DecoderCall) (pv1 pv2 : Bool)
    (hp1 : fedBytes cs1 = S) (hp2 : fedBytes cs2 = S) (hok1 : AllOk (decoding B s pv1 cs1).1) (hok2 : AllOk (decoding B s pv2 cs2).1)
    (hd1 : Drained (decoding B s pv1 cs1).2) (hd2 : Drained (decoding B s pv2 cs2).2) :
    given (decoding B s pv1 cs1).1 = given (decoding B s pv2 cs2).1 := by
  obtain ⟨p1, i1, o1, c1, g1, -⟩ := complete_of_drained ha hS hp1 hok1 hd1
  obtain ⟨p2, i2, o2, c2, g2, -⟩ := complete_of_drained ha hS hp2 hok2 hd2
  rw [i1] at i2
  simp only [Except.ok.injEq] at i2
  subst i2
  rw [g1, g2, c1.unique c2]

/-- **C25 (as far as it goes).** What has been given out at any time is a beginning of what is given out in the end: of a decoder
that has been given a beginning of the stream, and has not been told that this is all; or of one that has been given all of it. -/
theorem C25_output_so_far (B : Backend) (s : DecoderSettings) (ha : s.android = false) (S : List UInt8)
    (x : Descriptors) (k : Nat) (hS : HasDescriptors S x k) (cs1 cs2 : List DecoderCall) (pv1 pv2 : Bool)
    (hp1 : fedBytes cs1 <+: S) (hp2 : fedBytes cs2 = S) (hend : .signalEnd ∈ cs1 → fedBytes cs1 = S)
    (hok1 : AllOk (decoding B s pv1 cs1).1) (hok2 : AllOk (decoding B s pv2 cs2).1)
    (hd2 : Drained (decoding B s pv2 cs2).2) :
    given (decoding B s pv1 cs1).1 <+: given (decoding B s pv2 cs2).1 := by
  obtain ⟨E, hE⟩ := hp1
  obtain ⟨p2, i2, o2, c2, g2, -⟩ := complete_of_drained ha hS hp2 hok2 hd2
  rcases history ha hS hE (fun h => by
    have := hend h
    rw [this] at hE
    exact List.append_right_eq_self.mp hE) hok1 with ⟨-, hg⟩ | ⟨p1, i1, p', taken, hr, g1, -⟩
  · rw [hg]; exact List.nil_prefix
  · rw [i1] at i2
    simp only [Except.ok.injEq] at i2
    subst i2
    obtain ⟨more, hm⟩ := (List.prefix_append _ _).trans (hr.prefix c2)
    rw [g1, g2, ← hm, List.map_append, List.filter_append]
    exact List.prefix_append _ _

theorem orderly_of (cs : List DecoderCall) (ended : Bool) (h : EndsLast cs) (he : ended = true → ∀ b, .decode b ∉ cs) :
    Orderly ended cs := by
  induction cs generalizing ended with
  | nil => trivial
  | cons c cs ih =>
    have h2 : EndsLast cs := fun b a e => h (c :: b) a (by rw [e]; rfl)
    cases c with
    | decode b =>
      refine ⟨?_, ih ended h2 fun e b hb => he e b (by simp [hb])⟩
      cases ended with
      | false => rfl
      | true => exact absurd (he rfl b) (by simp)
    | getOutput s => exact ih ended h2 fun e b hb => he e b (by simp [hb])
    | signalEnd => exact ih true h2 fun _ => (h [] cs rfl).2

theorem parts_of {S : List UInt8} {x : Descriptors} {k : Nat} (hS : HasDescriptors S x k) (harr : Arrives S)
    (hsmall : S.length ≤ 4194304) (P : List UInt8) (hP : P <+: S) :
    ∃ r, ((parseDescriptors false).runA ⟨bytesBits P, 0, true⟩).1 = .ok r ∧ (∀ y, r = some y →
      y = x ∧ ((parseDescriptors false).runA ⟨bytesBits P, 0, true⟩).2.pos = 8 * k) := by
  obtain ⟨r, hr⟩ := harr P hP
  obtain ⟨q1, q2⟩ := parse_create P
  refine ⟨r, by rw [← q1]; exact hr, ?_⟩
  rintro y rfl
  obtain ⟨r1, r2⟩ := hS.parts P hP (Nat.le_trans hP.length_le hsmall) y hr
  exact ⟨r1, by omega⟩

/-- Every way of decoding, if all there is to give out is known. -/
theorem every_way_of_complete {s : DecoderSettings} (ha : s.android = false) {S : List UInt8} (hsmall : S.length ≤ 4194304)
    {x : Descriptors} {k : Nat} (hS : HasDescriptors S x k) (harr : Arrives S) {p1 : Processor B} {o1 : List Rendered}
    (i1 : initAll s x = .ok p1) (c1 : Complete p1 (bytesBits (S.drop k)) o1)
    (w1 : ∀ x ∈ o1, ∃ size, writeFrameToSpan x s.sampleType size = .ok (pcmOf s.sampleType x)) {cs2 : List DecoderCall} {pv2 : Bool}
    (hp2 : fedBytes cs2 <+: S) (hend : .signalEnd ∈ cs2 → fedBytes cs2 = S) (hlast : EndsLast cs2)
    (hsize : ∀ size, .getOutput size ∈ cs2 → ∀ out ∈ (o1.map (pcmOf s.sampleType)).filter (!·.isEmpty), out.length ≤ size) :
    AllOk (decoding B s pv2 cs2).1 := by
  obtain ⟨E, hE⟩ := hp2
  rw [fedBytes_eq] at hE
  refine Waiting.calls_ok (S := S) (P := []) (E := E) (x := x) (k := k) cs2 (by rw [← hE]; rfl) hsmall
    (parts_of hS harr hsmall) (Waiting.create ha pv2) i1 c1 ?_ (orderly_of cs2 false hlast (by simp)) w1 ?_
  · intro h
    have := hend h
    rw [← hE, fedBytes_eq] at this
    exact List.append_right_eq_self.mp this.symm
  · intro size hs x hx
    have := hsize size hs
    show (pcmOf s.sampleType x).length ≤ size
    cases he : (pcmOf s.sampleType x).isEmpty with
    | true =>
      have h0 : pcmOf s.sampleType x = [] := by simpa using he
      rw [h0]; exact Nat.zero_le _
    | false => exact this _ (List.mem_filter.mpr ⟨List.mem_map.mpr ⟨x, hx, rfl⟩, by rw [he]; rfl⟩)

/-- **C25 (every way).** If a stream can be decoded to the end in some way then it can be decoded in every way: cut into any pieces, and
with output asked for at any times, no call fails, unless data is pushed behind the end or a buffer is too small for a unit. -/
theorem C25_every_way_works (B : Backend) (s : DecoderSettings) (ha : s.android = false) (S : List UInt8) (hsmall : S.length ≤ 4194304)
    (x : Descriptors) (k : Nat) (hS : HasDescriptors S x k) (harr : Arrives S) (cs1 cs2 : List DecoderCall) (pv1 pv2 : Bool)
    (hp1 : fedBytes cs1 = S) (hok1 : AllOk (decoding B s pv1 cs1).1) (hd1 : Drained (decoding B s pv1 cs1).2)
    (hp2 : fedBytes cs2 <+: S) (hend : .signalEnd ∈ cs2 → fedBytes cs2 = S) (hlast : EndsLast cs2)
    (hsize : ∀ size, .getOutput size ∈ cs2 → ∀ out ∈ given (decoding B s pv1 cs1).1, out.length ≤ size) :
    AllOk (decoding B s pv2 cs2).1 := by
  obtain ⟨p1, i1, o1, c1, g1, w1⟩ := complete_of_drained ha hS hp1 hok1 hd1
  rw [g1] at hsize
  exact every_way_of_complete ha hsmall hS harr i1 c1 w1 hp2 hend hlast hsize

theorem signalEnd_finish {n size : Nat} {b : List UInt8} : .decode b ∉ finish n size := by
  simp only [finish, List.mem_flatten, List.mem_replicate]
  rintro ⟨l, ⟨-, rfl⟩, h⟩
  simp at h

theorem fed_finish (n size : Nat) : fedBytes (finish n size) = [] := by
  rw [fedBytes_eq]
  simp only [List.flatMap_eq_nil_iff]
  intro c hc
  cases c with
  | decode b => exact absurd hc signalEnd_finish
  | getOutput s => rfl
  | signalEnd => rfl

theorem finish_suffix {cs2 before after : List DecoderCall} {n size : Nat} (h2 : EndsLast cs2)
    (h : cs2 ++ finish n size = before ++ .signalEnd :: after) : fedBytes after = [] ∧ ∀ b, .decode b ∉ after := by
  have hfed : (∀ b, .decode b ∉ after) → fedBytes after = [] := by
    intro hh
    rw [fedBytes_eq, List.flatMap_eq_nil_iff]
    intro c hc
    cases c with
    | decode b => exact absurd hc (hh b)
    | getOutput s => rfl
    | signalEnd => rfl
  have : ∀ b, .decode b ∉ after := by
    rcases List.append_eq_append_iff.mp h with ⟨as, h1, h3⟩ | ⟨bs, h1, h3⟩
    · intro b hb
      have : DecoderCall.decode b ∈ finish n size := by rw [h3]; simp [hb]
      exact absurd this signalEnd_finish
    · cases bs with
      | nil =>
        intro b hb
        have : DecoderCall.decode b ∈ finish n size := by
          simp only [List.nil_append] at h3; rw [← h3]; simp [hb]
        exact absurd this signalEnd_finish
      | cons c bs =>
        simp only [List.cons_append, List.cons.injEq] at h3
        obtain ⟨rfl, rfl⟩ := h3
        intro b hb
        rcases List.mem_append.mp hb with hb | hb
        · exact (h2 before bs h1).2 b hb
        · exact absurd hb signalEnd_finish
  exact ⟨hfed this, this⟩

/-- Everything comes out, if all there is to give out is known. -/
theorem everything_of_complete {s : DecoderSettings} (ha : s.android = false) {S : List UInt8} (hsmall : S.length ≤ 4194304)
    {x : Descriptors} {k : Nat} (hS : HasDescriptors S x k) (harr : Arrives S) {p1 : Processor B} {o1 : List Rendered}
    (i1 : initAll s x = .ok p1) (c1 : Complete p1 (bytesBits (S.drop k)) o1)
    (w1 : ∀ x ∈ o1, ∃ size, writeFrameToSpan x s.sampleType size = .ok (pcmOf s.sampleType x)) {cs2 : List DecoderCall} {pv2 : Bool}
    (hp2 : fedBytes cs2 = S) (hlast : EndsLast cs2) {n size : Nat} (hn : S.length + 2 ≤ n)
    (hsize2 : ∀ size, .getOutput size ∈ cs2 → ∀ out ∈ (o1.map (pcmOf s.sampleType)).filter (!·.isEmpty), out.length ≤ size)
    (hsize : ∀ out ∈ (o1.map (pcmOf s.sampleType)).filter (!·.isEmpty), out.length ≤ size) :
    AllOk (decoding B s pv2 (cs2 ++ finish n size)).1 ∧
    given (decoding B s pv2 (cs2 ++ finish n size)).1 = (o1.map (pcmOf s.sampleType)).filter (!·.isEmpty) := by
  have hfed : fedBytes (cs2 ++ finish n size) = S := by
    have h1 := fed_finish n size
    rw [fedBytes_eq] at h1 hp2 ⊢
    rw [List.flatMap_append, hp2, h1, List.append_nil]
  have hok2 : AllOk (decoding B s pv2 cs2).1 := every_way_of_complete ha hsmall hS harr i1 c1 w1 (by rw [hp2]) (fun _ => hp2) hlast hsize2
  refine ⟨every_way_of_complete ha hsmall hS harr i1 c1 w1 (by rw [hfed]) (fun _ => hfed) (fun b a h => finish_suffix hlast h) ?_, ?_⟩
  · intro z hz
    rcases List.mem_append.mp hz with hz | hz
    · exact hsize2 z hz
    · simp only [finish, List.mem_flatten, List.mem_replicate] at hz
      obtain ⟨l, ⟨-, rfl⟩, hz⟩ := hz
      simp only [List.mem_cons, reduceCtorEq, DecoderCall.getOutput.injEq, List.not_mem_nil, or_false, false_or] at hz
      rw [hz]; exact hsize
  · rcases history ha hS (E := []) (by rw [List.append_nil]; exact hp2) (fun _ => rfl) hok2 with ⟨hw, -⟩ | ⟨p2, i2, p', taken, hr, g2, -⟩
    · exfalso
      have h1 := hS.whole
      rw [(parse_create S).1, ← hp2] at h1
      rcases hw.asked with h2 | h2
      · rw [h2] at h1
        have : ((parseDescriptors false).runA ⟨bytesBits [], 0, true⟩).1 = .ok none := by decide +kernel
        rw [this] at h1
        simp at h1
      · rw [h2] at h1; simp at h1
    · rw [i1] at i2
      simp only [Except.ok.injEq] at i2
      subst i2
      have hset : (decoding B s pv2 cs2).2.settings = s := by
        have : ∀ (cs : List DecoderCall) (d : Decoder B), (d.calls cs).2.settings = d.settings := by
          intro cs
          induction cs with
          | nil => intro d; rfl
          | cons c cs ih => intro d; simp only [Decoder.calls]; rw [ih, Decoder.call_settings]
        exact this cs2 _
      have hTlen : (bytesBits (S.drop k)).length ≤ 8 * S.length := by rw [bytesBits_length, List.length_drop]; omega
      have hrest : (decoding B s pv2 cs2).2.buffer.abs.rest.length ≤ 8 * S.length := by
        obtain ⟨m, us, st1, ws, xs, t1, -⟩ := hr.trace
        have := (steps_good (initAll_good i1) (by omega) t1).2
        rw [List.length_append] at this
        omega
      have hs : ∀ x ∈ o1, (pcmOf s.sampleType x).length ≤ size := by
        intro x hx
        cases he : (pcmOf s.sampleType x).isEmpty with
        | true =>
          have h0 : pcmOf s.sampleType x = [] := by simpa using he
          rw [h0]; exact Nat.zero_le _
        | false => exact hsize _ (List.mem_filter.mpr ⟨List.mem_map.mpr ⟨x, hx, rfl⟩, by rw [he]; rfl⟩)
      obtain ⟨more, m1, m2⟩ := hr.rounds (size := size) n (initAll_good i1) (by omega) c1 (by rw [hset]; exact w1) (by rw [hset]; exact hs)
        (.inl (by omega))
      unfold decoding at g2 m2 ⊢
      rw [Decoder.calls_append]
      simp only
      rw [given_eq] at g2 ⊢
      rw [List.filterMap_append, g2]
      have e : finish n size = (List.replicate n (endRound size)).flatten := rfl
      rw [e, m2]
      unfold decoding at hset
      rw [hset, ← m1, List.map_append, List.filter_append]

/-- **C25 (everything comes out).** If a stream can be decoded to the end in some way, then whatever pieces it is cut into, and whenever
output is asked for, signalling the end and asking for output often enough gives all of the temporal units, in the same order and
each of them once. -/
theorem C25_everything_comes_out (B : Backend) (s : DecoderSettings) (ha : s.android = false) (S : List UInt8)
    (hsmall : S.length ≤ 4194304) (x : Descriptors) (k : Nat) (hS : HasDescriptors S x k) (harr : Arrives S)
    (cs1 cs2 : List DecoderCall) (pv1 pv2 : Bool) (hp1 : fedBytes cs1 = S) (hok1 : AllOk (decoding B s pv1 cs1).1)
    (hd1 : Drained (decoding B s pv1 cs1).2) (hp2 : fedBytes cs2 = S) (hlast : EndsLast cs2) (n size : Nat) (hn : S.length + 2 ≤ n)
    (hsize2 : ∀ size, .getOutput size ∈ cs2 → ∀ out ∈ given (decoding B s pv1 cs1).1, out.length ≤ size)
    (hsize : ∀ out ∈ given (decoding B s pv1 cs1).1, out.length ≤ size) :
    AllOk (decoding B s pv2 (cs2 ++ finish n size)).1 ∧
    given (decoding B s pv2 (cs2 ++ finish n size)).1 = given (decoding B s pv1 cs1).1 := by
  obtain ⟨p1, i1, o1, c1, g1, w1⟩ := complete_of_drained ha hS hp1 hok1 hd1
  rw [g1] at hsize2 hsize ⊢
  exact everything_of_complete ha hsmall hS harr i1 c1 w1 hp2 hlast hn hsize2 hsize

/-! ### Streams -/

/-- **C25 (written streams).** A stream of descriptor OBUs that were written (as in C21), followed by an OBU of a temporal unit and
anything else, meets the assumptions above about its descriptors. -/
theorem C25_written_streams (x : DescriptorObu) (xs : List DescriptorObu) (s : IaSequenceHeader)
    (hfirst : x.content = .sequenceHeader s) (hx : ∀ y ∈ x :: xs, y.Proper) (hone : OneSequence (x :: xs)) (bytes : List UInt8)
    (hw : WrittenAs (x :: xs) bytes) (g : LebGen) (h : ObuHeader) (payload : Wr Unit) (footer unit rest : List UInt8)
    (ht : Writes g (wObu h payload footer) unit) (htu : 3 ≤ h.obuType ∧ h.obuType ≤ 23)
    (hl : (bytes ++ unit ++ rest).length < 4294967295) :
    HasDescriptors (bytes ++ unit ++ rest) ((x :: xs).foldl collect .empty) bytes.length ∧ Arrives (bytes ++ unit ++ rest) := by
  refine ⟨⟨(C21_written_descriptors_are_collected x xs s hfirst hx hone bytes hw g h payload footer unit rest ht htu hl 1024 (by decide)
    true).1, fun P hP _ y hy => ?_⟩, fun P hP => ?_⟩
  · rcases C21_beginnings_of_a_stream x xs s hfirst hx hone bytes hw g h payload footer unit rest ht htu hl P hP 1024 (by decide) true with
      h1 | ⟨h1, h2⟩
    · rw [h1] at hy; simp at hy
    · rw [h1] at hy
      simp only [Except.ok.injEq, Option.some.injEq] at hy
      exact ⟨hy.symm, h2⟩
  · rcases C21_beginnings_of_a_stream x xs s hfirst hx hone bytes hw g h payload footer unit rest ht htu hl P hP 1024 (by decide) true with
      h1 | ⟨h1, -⟩
    · exact ⟨_, h1⟩
    · exact ⟨_, h1⟩

/-- When nothing is left to do, and nothing is in the current unit, signalling the end changes nothing. -/
private theorem drained_of {d : Decoder B} {p : Processor B} (hp : d.processor = some p) (hf : d.buffer.Fit) (hg : p.state.Good)
    (hset : d.settings.android = false ∧ d.fromDescriptors = false) (hpe : d.pending = [])
    (hst : Stuck p.context p.state d.buffer.abs.rest) (hcur : flushUnit p.state = (none, p.state)) : Drained d := by
  have hrun : ∀ d : Decoder B, (∃ p, d.processor = some p ∧ d.buffer.Fit ∧ p.state.Good ∧
      (d.settings.android = false ∧ d.fromDescriptors = false) ∧ d.pending = [] ∧ Stuck p.context p.state d.buffer.abs.rest ∧
      flushUnit p.state = (none, p.state)) → ∀ n, AllOk (d.calls (List.replicate n .signalEnd)).1 ∧
        (d.calls (List.replicate n .signalEnd)).2.isUnitAvailable = false := by
    intro d hd n
    induction n generalizing d with
    | zero =>
      obtain ⟨p, -, -, -, -, hpe, -⟩ := hd
      simp [Decoder.calls, AllOk, Decoder.isUnitAvailable, hpe]
    | succ n ih =>
      obtain ⟨p, hp, hf, hg, hset, hpe, hst, hcur⟩ := hd
      have hR : Running p p d.buffer.abs.rest [] [] { d with ended := true } :=
        ⟨hp, rfl, hf, hg, hset, fun _ => rfl, 0, [], p.state, [], [], by simp [steps], .inl ⟨rfl, rfl⟩, rfl, by
          simp [sounding, Decoder.pendings, hpe]⟩
      have hC : Complete p d.buffer.abs.rest [] := ⟨0, [], p.state, d.buffer.abs.rest, [], p.renderer, rfl, hst, by simp [hcur, renderAll], rfl⟩
      obtain ⟨d1, hd1⟩ := hR.decodeOne_ok hg hf.rest hC (eos := true) (fun _ => rfl)
      have hcall : d.call .signalEnd = (.ok [], d1) := by
        simp only [Decoder.call, Decoder.signalEnd, hset.2, hpe, hp, Option.isSome_some, Bool.not_false, List.isEmpty_nil, Bool.true_and, ↓reduceIte]
        have : ({ d with ended := true } : Decoder B) = ⟨d.settings, false, d.buffer, some p, [], true, d.reorderer, d.descriptors⟩ := by
          rw [← hset.2, ← hp, ← hpe]
        rw [← this, hd1]
      simp only [List.replicate_succ, Decoder.calls, hcall]
      obtain ⟨p', u, hone⟩ := decodeOne_spec hR.processor hR.fit hR.good hR.settings.1 hd1
      obtain ⟨k, us', st1', hk, halt⟩ := hone.steps
      have k0 := hk []
      simp only [List.append_nil] at k0
      have h0 : Iamf.steps p.context 0 p.state d.buffer.abs.rest = some ([], p.state, d.buffer.abs.rest) := rfl
      obtain ⟨hle, -⟩ := steps_stuck h0 hst k0
      obtain rfl : k = 0 := by omega
      simp only [Iamf.steps, Option.some.injEq, Prod.mk.injEq] at k0
      obtain ⟨rfl, rfl, hr⟩ := k0
      have hu : u = none ∧ p'.state = p.state := by
        rcases halt with ⟨-, -, a⟩ | ⟨-, -, -, a⟩
        · rw [← hr] at a; simp only at a; omega
        · simpa [hcur] using a
      obtain ⟨rfl, hps⟩ := hu
      obtain ⟨-, hpend⟩ := hone.rendered
      have hnext := ih d1 ⟨p', hone.processor, hone.fit, by rw [hps]; exact hg, by rw [hone.same.1, hone.same.2.1]; exact hset,
        hpend.trans hpe, by rw [hone.context, hps, ← hr]; exact hst, by rw [hps]; exact hcur⟩
      refine ⟨fun r hr => ?_, hnext.2⟩
      rcases List.mem_cons.mp hr with rfl | hr
      · exact ⟨_, rfl⟩
      · exact hnext.1 r hr
  exact hrun d ⟨p, hp, hf, hg, hset, hpe, hst, hcur⟩

/-! ### The assumptions can be met -/

/-- A decoder that has no data left, no unit available and no unit begun. -/
def isIdle (d : Decoder B) : Bool :=
  d.pending.isEmpty && d.buffer.abs.rest.isEmpty && match d.processor with
    | none => false
    | some p => p.state.current.frames.isEmpty && p.state.current.blocks.isEmpty

/-- **C25 (idle).** There is nothing more to get out of a decoder that has no data left and neither a unit available nor one begun. -/
theorem C25_idle_is_drained (B : Backend) (s : DecoderSettings) (ha : s.android = false) (S : List UInt8)
    (x : Descriptors) (k : Nat) (hS : HasDescriptors S x k) (cs : List DecoderCall) (pv : Bool) (hp : fedBytes cs = S)
    (hok : AllOk (decoding B s pv cs).1) (hidle : isIdle (decoding B s pv cs).2 = true) : Drained (decoding B s pv cs).2 := by
  unfold isIdle at hidle
  rcases history ha hS (E := []) (by rw [List.append_nil]; exact hp) (fun _ => rfl) hok with ⟨hw, -⟩ | ⟨p0, h0, p, taken, hr, -⟩
  · rw [hw.processor] at hidle
    simp at hidle
  · rw [hr.processor] at hidle
    simp only [Bool.and_eq_true] at hidle
    obtain ⟨⟨h1, h2⟩, h3⟩ := hidle
    refine drained_of hr.processor hr.fit hr.good hr.settings (by simpa using h1) ?_ ?_
    · rw [show (decoding B s pv cs).2.buffer.abs.rest = [] by simpa using h2]
      exact stuck_nil _ _
    · unfold flushUnit
      rw [if_pos (by simp only [Bool.and_eq_true]; exact h3)]

/-- Descriptors: a sequence header, an LPCM codec config, a stereo element and a mix presentation with it, for stereo and 7.1. -/
def exampleDescriptors : List DescriptorObu :=
  [⟨⟨31, false, false, 0, 0, none⟩, .sequenceHeader ⟨0, 0⟩, []⟩,
   ⟨⟨0, false, false, 0, 0, none⟩, .codecConfig ⟨7, kCodecIdLpcm, 2, 0, .lpcm ⟨1, 16, 48000⟩⟩, []⟩,
   ⟨⟨1, false, false, 0, 0, none⟩, .audioElement ⟨3, 0, 0, 7, [5], [], .scalable ⟨0, [⟨1, false, false, 0, 1, 1, 0, 0, 0, none⟩]⟩⟩, []⟩,
   ⟨⟨2, false, false, 0, 0, none⟩, .mixPresentation ⟨42, 0, [], [], [⟨[⟨3, [], ⟨0, 0, 0, [], none, []⟩, ⟨⟨8, 48000, 0, none⟩, .mixGain 0⟩⟩],
     ⟨⟨9, 48000, 0, none⟩, .mixGain 0⟩, [⟨⟨2, .soundSystem 0 0⟩, ⟨0, 0, 0, 0, [], []⟩⟩, ⟨⟨2, .soundSystem 8 0⟩, ⟨0, 0, 0, 0, [], []⟩⟩]⟩],
     none, none⟩, []⟩]

def exampleBytes : List UInt8 :=
  [248, 6, 105, 97, 109, 102, 0, 0, 0, 14, 7, 105, 112, 99, 109, 2, 0, 0, 1, 16, 0, 0, 187, 128, 8, 10, 3, 0, 7, 1, 5, 0, 32, 16, 1, 1,
    16, 34, 42, 0, 1, 1, 3, 0, 0, 8, 128, 247, 2, 128, 0, 0, 9, 128, 247, 2, 128, 0, 0, 2, 128, 0, 0, 0, 0, 0, 160, 0, 0, 0, 0, 0]

/-- Temporal delimiters and frames of two samples. -/
def exampleUnits : List UInt8 := [88, 4, 1, 2, 3, 4, 32, 0, 88, 4, 5, 6, 7, 8, 32, 0, 88, 4, 9, 10, 11, 12]

/-- Frames are "rendered" as one channel per frame, with one sample per byte. -/
def exampleBackend : Backend :=
  ⟨Nat, fun _ _ => .ok 0, fun n u => (.ok (u.frames.map fun f => f.frame.frame.audioFrame.map fun b => (b.toNat : Rat) / 256), n + 1)⟩

def exampleSettings : DecoderSettings := ⟨[0], none, none, false, 1⟩

def exampleAll : List UInt8 := exampleBytes ++ [32, 0] ++ exampleUnits

theorem example_has_descriptors : HasDescriptors exampleAll (exampleDescriptors.foldl collect .empty) exampleBytes.length ∧
    Arrives exampleAll := by
  refine C25_written_streams _ _ ⟨0, 0⟩ rfl ?_ ?_ exampleBytes ?_ .minimum ⟨4, false, false, 0, 0, none⟩ wTemporalDelimiter [] [32, 0]
    exampleUnits ⟨⟨.minimum, [32, 0], 16⟩, by decide +kernel, rfl, rfl⟩ (by decide) (by decide)
  · intro y hy
    simp only [List.mem_cons, List.not_mem_nil, or_false] at hy
    rcases hy with rfl | rfl | rfl | rfl
    · exact ⟨rfl, rfl, rfl⟩
    · exact ⟨rfl, rfl, rfl, by simp [CodecConfig.Typed], by simp⟩
    · exact ⟨rfl, rfl, rfl, .scalable 3 0 7 [5] ⟨0, [⟨1, false, false, 0, 1, 1, 0, 0, 0, none⟩]⟩
        ⟨3, 0, 0, 7, [5], [], .scalable ⟨0, [⟨1, false, false, 0, 1, 1, 0, 0, 0, none⟩]⟩⟩ [] (by decide +kernel) (by decide) (by simp)⟩
    · refine ⟨rfl, rfl, rfl, ?_, by decide, by decide, by simp⟩
      intro s hs
      simp only [List.mem_singleton] at hs
      subst hs
      refine ⟨⟨by simp, _, rfl⟩, fun e he => ?_⟩
      simp only [List.mem_singleton] at he
      subst he
      exact ⟨⟨by simp, _, rfl⟩, fun p hp => by simp at hp, fun x hx => by simp at hx⟩
  · unfold OneSequence; decide
  · refine ⟨[exampleBytes.take 8, (exampleBytes.drop 8).take 16, (exampleBytes.drop 24).take 12, exampleBytes.drop 36], by decide, ?_⟩
    refine .cons ⟨.minimum, ⟨.minimum, _, _⟩, ?_, rfl, rfl⟩ (.cons ⟨.minimum, ⟨.minimum, _, _⟩, ?_, rfl, rfl⟩
      (.cons ⟨.minimum, ⟨.minimum, _, _⟩, ?_, rfl, rfl⟩ (.cons ⟨.minimum, ⟨.minimum, _, _⟩, ?_, rfl, rfl⟩ .nil))) <;> decide +kernel

/-- All at once, and then the end. -/
def exampleCalls : List DecoderCall := [.decode exampleAll, .signalEnd] ++ List.replicate 4 (.getOutput 8)

/-- One byte at a time, with a request for output after each. -/
def exampleBytewise : List DecoderCall := exampleAll.flatMap fun b => [.decode [b], .getOutput 1000]

/-- What comes out of the example, and that nothing is left. -/
example : (decoding exampleBackend exampleSettings true exampleCalls).1 =
      [.ok [], .ok [], .ok [128, 0, 0, 1, 128, 1, 0, 2], .ok [128, 2, 0, 3, 128, 3, 0, 4], .ok [128, 4, 0, 5, 128, 5, 0, 6], .ok []] ∧
    isIdle (decoding exampleBackend exampleSettings true exampleCalls).2 = true := by decide +kernel

private theorem example_ok : AllOk (decoding exampleBackend exampleSettings true exampleCalls).1 := by
  have h : (decoding exampleBackend exampleSettings true exampleCalls).1 =
      [.ok [], .ok [], .ok [128, 0, 0, 1, 128, 1, 0, 2], .ok [128, 2, 0, 3, 128, 3, 0, 4], .ok [128, 4, 0, 5, 128, 5, 0, 6], .ok []] := by
    decide +kernel
  rw [h]
  intro r hr
  simp only [List.mem_cons, List.not_mem_nil, or_false] at hr
  rcases hr with rfl | rfl | rfl | rfl | rfl | rfl <;> exact ⟨_, rfl⟩

private theorem example_drained : Drained (decoding exampleBackend exampleSettings true exampleCalls).2 :=
  C25_idle_is_drained _ _ rfl exampleAll _ _ example_has_descriptors.1 exampleCalls true (by decide) example_ok (by decide +kernel)

private theorem example_given : given (decoding exampleBackend exampleSettings true exampleCalls).1 =
    [[128, 0, 0, 1, 128, 1, 0, 2], [128, 2, 0, 3, 128, 3, 0, 4], [128, 4, 0, 5, 128, 5, 0, 6]] := by decide +kernel

/-- The theorems apply: whatever way the example is cut into pieces, the three units come out. -/
example (cs : List DecoderCall) (hp : fedBytes cs = exampleAll) (hlast : EndsLast cs) (hsize : ∀ size, .getOutput size ∈ cs → 8 ≤ size) :
    given (decoding exampleBackend exampleSettings false (cs ++ finish 100 8)).1 =
      [[128, 0, 0, 1, 128, 1, 0, 2], [128, 2, 0, 3, 128, 3, 0, 4], [128, 4, 0, 5, 128, 5, 0, 6]] := by
  have hlen : ∀ out ∈ given (decoding exampleBackend exampleSettings true exampleCalls).1, out.length ≤ 8 := by
    rw [example_given]; decide
  rw [← example_given]
  exact (C25_everything_comes_out exampleBackend exampleSettings rfl exampleAll (by decide) _ _ example_has_descriptors.1
    example_has_descriptors.2 exampleCalls cs true false (by decide) example_ok example_drained hp hlast 100 8 (by decide)
    (fun size hs out ho => Nat.le_trans (hlen out ho) (hsize size hs)) hlen).2

/-- One byte at a time, for instance. -/
example : fedBytes exampleBytewise = exampleAll ∧ EndsLast exampleBytewise ∧ ∀ size, .getOutput size ∈ exampleBytewise → 8 ≤ size := by
  have hmem : ∀ c ∈ exampleBytewise, c ≠ .signalEnd ∧ ∀ size, c = .getOutput size → 8 ≤ size := by
    intro c hc
    simp only [exampleBytewise, List.mem_flatMap, List.mem_cons, List.not_mem_nil, or_false] at hc
    obtain ⟨b, -, rfl | rfl⟩ := hc
    · exact ⟨by simp, by simp⟩
    · exact ⟨by simp, fun size h => by simp only [DecoderCall.getOutput.injEq] at h; omega⟩
  refine ⟨by decide +kernel, fun b a h => ?_, fun size hs => (hmem _ hs).2 size rfl⟩
  exact absurd rfl (hmem .signalEnd (by rw [h]; simp)).1

/-! ### What is not so -/

/-- **C25 (finding).** "The end has been signalled and no unit is available" does not mean that all has come out: two temporal delimiters
in a row end the processing of what has been pushed, and signalling the end again gives more. -/
theorem C25_end_may_have_to_be_signalled_again :
    let S := exampleBytes ++ [32, 0] ++ [32, 0] ++ exampleUnits
    let d := (decoding exampleBackend exampleSettings true [.decode S, .signalEnd]).2
    AllOk (decoding exampleBackend exampleSettings true [.decode S, .signalEnd]).1 ∧ d.isUnitAvailable = false ∧
      (d.call .signalEnd).2.isUnitAvailable = true := by
  refine ⟨?_, by decide +kernel, by decide +kernel⟩
  have h : (decoding exampleBackend exampleSettings true [.decode (exampleBytes ++ [32, 0] ++ [32, 0] ++ exampleUnits), .signalEnd]).1 =
      [.ok [], .ok []] := by decide +kernel
  simp only [h]
  intro r hr
  simp only [List.mem_cons, List.not_mem_nil, or_false, or_self] at hr
  subst hr
  exact ⟨_, rfl⟩

/-- **C25 (finding).** A request for output with a buffer that is too small fails, and the unit is lost if there is another behind it. -/
theorem C25_small_buffer_loses_a_unit :
    (decoding exampleBackend exampleSettings true [.decode exampleAll, .signalEnd, .getOutput 0, .getOutput 8, .getOutput 8, .getOutput 8]).1 =
      [.ok [], .ok [], .error .invalidArgument, .ok [128, 2, 0, 3, 128, 3, 0, 4], .ok [128, 4, 0, 5, 128, 5, 0, 6], .ok []] := by
  decide +kernel

/-- Frames are "rendered" as eight channels, with a different sample in each. -/
def sevenOneBackend : Backend :=
  ⟨Nat, fun _ _ => .ok 0, fun n _ => (.ok ((List.range 8).map fun i => [(i : Rat) / 128]), n + 1)⟩

/-- **C25 (finding).** When channels are to be reordered for Android, it does matter into what pieces a stream is cut: the order is set
up by the first call of `Decode` after the descriptors have been seen, and a stream that comes in one piece is not reordered. -/
theorem C25_reordering_depends_on_pieces :
    let s : DecoderSettings := ⟨[0], none, some ⟨2, .soundSystem 8 0⟩, true, 1⟩
    given (decoding sevenOneBackend s true [.decode exampleAll, .signalEnd, .getOutput 100]).1 =
      [[0, 0, 0, 1, 0, 2, 0, 3, 0, 4, 0, 5, 0, 6, 0, 7]] ∧
    given (decoding sevenOneBackend s true [.decode (exampleBytes ++ [32, 0]), .decode exampleUnits, .signalEnd, .getOutput 100]).1 =
      [[0, 0, 0, 1, 0, 2, 0, 3, 0, 6, 0, 7, 0, 4, 0, 5]] := by decide +kernel

end Iamf.Props
