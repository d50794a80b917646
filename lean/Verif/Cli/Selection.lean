import Verif.Obu.Mix
import Verif.Obu.AudioElement
/-
  Selection of the mix presentation and layout to render: cli/obu_processor_utils.cc.

  The list of pointers to mix presentations is modelled by the list of the mix presentations; a chosen pointer is an
  index into the list, and the modification through the pointer replaces that entry.  `int` indices are natural
  numbers (a vector of 2^31 sub-mixes or layouts does not fit the OBU size limit of 2 MB).
-/
namespace Iamf

/-- `IsLayoutStereo` (obu_processor_utils.cc:38-42). -/
def Layout.isStereo (l : Layout) : Bool := match l.specific with
  | .soundSystem s _ => s == 0
  | .other _ => false

/-- `IsLayoutBinaural` (obu_processor_utils.cc:44-46). -/
def Layout.isBinaural (l : Layout) : Bool := l.type == 3

/-- `FindMixPresentationWithCondition` (obu_processor_utils.cc:25-36): the index of the first match, counted from `n`. -/
def findMixFrom (cond : MixPresentation → Except Err Bool) : List MixPresentation → Nat → Except Err (Option Nat)
  | [], _ => .ok none
  | m :: ms, n => do
    let b ← cond m
    if b then .ok (some n) else findMixFrom cond ms (n + 1)

/-- `HasOneAudioElementWithLayout` (obu_processor_utils.cc:50-74).  `back()` of an empty vector is undefined. -/
def hasOneElementWithLayout (es : List SubMixElement) (aes : List (UInt32 × AudioElement)) (layout : UInt8) :
    Except Err Bool :=
  match es with
  | [e] => match aes.lookup e.id with
    | none => .ok false
    | some a => match a.config with
      | .scalable c => match c.layers.getLast? with
        | none => .error .ub
        | some x => .ok (x.layout == layout)
      | _ => .ok false
  | _ => .ok false

/-- `MixPresentationContainsLayout` (obu_processor_utils.cc:76-86). -/
def MixPresentation.containsLayout (m : MixPresentation) (d : Layout) : Bool :=
  m.subMixes.any fun s => s.layouts.any fun l => l.layout == d

/-- `HasOneStereoLayoutAndAudioElement` (obu_processor_utils.cc:88-106); `&&` short-circuits. -/
def hasOneStereo (m : MixPresentation) (aes : List (UInt32 × AudioElement)) : Except Err Bool :=
  match m.subMixes with
  | [] => .ok false
  | s :: _ => match s.layouts with
    | [l] => if l.layout.isStereo then hasOneElementWithLayout s.elements aes 1 else .ok false
    | _ => .ok false

/-- The condition of clause 2.2.1 (obu_processor_utils.cc:115-126). -/
def hasOneStereoForHeadphones (m : MixPresentation) (aes : List (UInt32 × AudioElement)) : Except Err Bool := do
  let b ← hasOneStereo m aes
  if !b then .ok false
  else match m.subMixes with
    | s :: _ => match s.elements with
      | e :: _ => .ok (e.rendering.headphonesMode == 0)
      | [] => .error .ub
    | [] => .error .ub

/-- `FindPreferredStereoLoudspeakerMixPresentation` (obu_processor_utils.cc:108-137). -/
def findPreferredStereo (ms : List MixPresentation) (aes : List (UInt32 × AudioElement)) : Except Err (Option Nat) := do
  match ← findMixFrom (fun m => hasOneStereoForHeadphones m aes) ms 0 with
  | some i => .ok (some i)
  | none => findMixFrom (fun m => hasOneStereo m aes) ms 0

/-- The condition of clause 2.1.1 (obu_processor_utils.cc:145-153). -/
def hasOneBinauralElement (m : MixPresentation) (aes : List (UInt32 × AudioElement)) : Except Err Bool :=
  match m.subMixes with
  | [] => .ok false
  | s :: _ => hasOneElementWithLayout s.elements aes 9

/-- The condition of clause 2.1.2 (obu_processor_utils.cc:161-171). -/
def MixPresentation.hasBinauralLayout (m : MixPresentation) : Bool :=
  m.subMixes.any fun s => s.layouts.any fun l => l.layout.isBinaural

/-- `FindPreferredBinauralMixPresentation` (obu_processor_utils.cc:139-172). -/
def findPreferredBinaural (ms : List MixPresentation) (aes : List (UInt32 × AudioElement)) : Except Err (Option Nat) := do
  match ← findMixFrom (fun m => hasOneBinauralElement m aes) ms 0 with
  | some i => .ok (some i)
  | none => findMixFrom (fun m => .ok m.hasBinauralLayout) ms 0

/-- Steps 1 to 3 of `FindMixPresentationAndLayout` (obu_processor_utils.cc:188-227). -/
def chooseMix (aes : List (UInt32 × AudioElement)) (ms : List MixPresentation) (desired : Option Layout)
    (id : Option UInt32) : Except Err Nat := do
  let a ← (match id with
    | some i => findMixFrom (fun m => .ok (m.id == i)) ms 0
    | none => .ok none)
  let b ← (match a, desired with
    | none, some d =>
      if d.isBinaural then findPreferredBinaural ms aes
      else if d.isStereo then findPreferredStereo ms aes
      else findMixFrom (fun m => .ok (m.containsLayout d)) ms 0
    | a, _ => .ok a)
  .ok (b.getD 0)

/-- The search of step 4.B in the layouts of a sub-mix (obu_processor_utils.cc:253-264). -/
def findLayout (d : Layout) : List MixLayout → Nat → Option Nat
  | [], _ => none
  | l :: ls, n => if d = l.layout then some n else findLayout d ls (n + 1)

/-- The search of step 4.B (obu_processor_utils.cc:250-265). -/
def findSubMixAndLayout (d : Layout) : List SubMix → Nat → Option (Nat × Nat)
  | [], _ => none
  | s :: ss, n => match findLayout d s.layouts 0 with
    | some k => some (n, k)
    | none => findSubMixAndLayout d ss (n + 1)

/-- `layouts.push_back` on the first sub-mix (obu_processor_utils.cc:268-269).  The loudness of the new layout has the default
values of `LoudnessInfo` (mix_presentation.h:59-128). -/
def MixPresentation.addLayout (m : MixPresentation) (d : Layout) : MixPresentation :=
  { m with subMixes := match m.subMixes with
      | [] => []
      | s :: ss => { s with layouts := s.layouts ++ [⟨d, ⟨0, 0, 0, 0, [], []⟩⟩] } :: ss }

/-- `SelectedMixPresentation` (obu_processor_utils.h:16-23), with the list of mix presentations after the call. -/
structure Selected where
  mix : Nat
  layout : Layout
  subMixIndex : Nat
  layoutIndex : Nat
  mixes : List MixPresentation
  deriving DecidableEq, Repr

/-- `FindMixPresentationAndLayout` (obu_processor_utils.cc:179-277). -/
def findMixAndLayout (aes : List (UInt32 × AudioElement)) (ms : List MixPresentation) (desired : Option Layout)
    (id : Option UInt32) : Except Err Selected :=
  if ms.isEmpty then .error .invalidArgument
  else do
    let i ← chooseMix aes ms desired id
    match ms[i]? with
    | none => .error .ub
    | some m => match m.subMixes with
      | [] => .error .invalidArgument
      | s :: _ => match desired with
        | none => match s.layouts with
          | [] => .error .invalidArgument
          | l :: _ => .ok ⟨i, l.layout, 0, 0, ms⟩
        | some d => match findSubMixAndLayout d m.subMixes 0 with
          | some (a, b) => .ok ⟨i, d, a, b, ms⟩
          | none => .ok ⟨i, d, 0, s.layouts.length, ms.set i (m.addLayout d)⟩

/-- `CreateSimplifiedMixPresentationForRendering` (obu_processor_utils.cc:279-302). -/
def simplifyMix (m : MixPresentation) (subMix layout : Int) : Except Err MixPresentation :=
  if subMix < 0 then .error .outOfRange
  else match m.subMixes[subMix.toNat]? with
    | none => .error .outOfRange
    | some s =>
      if layout < 0 then .error .outOfRange
      else match s.layouts[layout.toNat]? with
        | none => .error .outOfRange
        | some l => .ok { m with subMixes := [{ s with layouts := [l] }] }

end Iamf
