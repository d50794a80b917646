import Verif.Cli.Labels
import Verif.Obu.Mix
/-
  Filtering of profiles: cli/profile_filter.cc.

  A set of profiles is modelled by the list of its members; `erase` removes all occurrences.  Sizes are natural numbers (the
  code uses `int`).
-/
namespace Iamf

/-- A filter gets the set of profiles by reference and returns a status and, here, the new set. -/
abbrev ProfileFilter := List UInt8 → Except Err Unit × List UInt8

/-- `profile_versions.erase(p)` for each of the given profiles. -/
def eraseProfiles (ps : List UInt8) (s : List UInt8) : List UInt8 := s.filter fun p => !ps.contains p

/-- `RETURN_IF_NOT_OK` on the first filter. -/
def ProfileFilter.andThen (f g : ProfileFilter) : ProfileFilter := fun s =>
  match f s with
  | (.ok (), s') => g s'
  | (.error e, s') => (.error e, s')

/-- `if (profile_versions.empty()) return InvalidArgumentError` -/
def failIfEmpty : ProfileFilter := fun s => if s.isEmpty then (.error .invalidArgument, s) else (.ok (), s)

/-- `ClearAndReturnError` (profile_filter.cc:44-49). -/
def clearAll : ProfileFilter := fun _ => (.error .invalidArgument, [])

/-- Erases profiles and succeeds. -/
def erasing (ps : List UInt8) : ProfileFilter := fun s => (.ok (), eraseProfiles ps s)

/-- `FilterAudioElementType` (profile_filter.cc:51-81). -/
def filterElementType (t : UInt8) : ProfileFilter :=
  ProfileFilter.andThen (erasing (if t = 0 ∨ t = 1 then [] else if t = 2 then [0, 1, 2] else [0, 1, 2, 3, 4, 5])) failIfEmpty

/-- `FilterExpandedLoudspeakerLayout` (profile_filter.cc:86-142). -/
def filterExpanded (x : Option UInt8) : ProfileFilter := match x with
  | none => clearAll
  | some x =>
    ProfileFilter.andThen (erasing (if x ≤ 12 then [] else if x ≤ 19 then [2] else [2, 3, 4, 5])) failIfEmpty

/-- `FilterChannelBasedConfig` (profile_filter.cc:144-212).  A loudspeaker layout above 15 does not fit its bit field; the
switch ignores it. -/
def filterChannelBased (e : AudioElement) : ProfileFilter := match e.config with
  | .scalable c => match c.layers with
    | [] => clearAll
    | l :: _ =>
      ProfileFilter.andThen
        (if l.layout < 10 then erasing []
         else if l.layout < 15 then erasing [0, 1, 2, 3, 4, 5]
         else if l.layout = 15 then ProfileFilter.andThen (erasing [0, 1]) (filterExpanded l.expanded)
         else erasing [])
        failIfEmpty
  | _ => clearAll

/-- `FilterAmbisonicsConfig` (profile_filter.cc:214-250).  The variant of the model has no other modes. -/
def filterAmbisonics (e : AudioElement) : ProfileFilter := match e.config with
  | .ambisonics _ => failIfEmpty
  | _ => clearAll

/-- `ProfileFilter::FilterProfilesForAudioElement` (profile_filter.cc:558-587). -/
def filterElement (e : AudioElement) : ProfileFilter :=
  ProfileFilter.andThen (filterElementType e.elementType)
    (if e.elementType = 0 then filterChannelBased e
     else if e.elementType = 1 then filterAmbisonics e
     else fun s => (.ok (), s))

/-- `FilterProfileForNumSubmixes` (profile_filter.cc:252-278). -/
def filterNumSubMixes (n : Nat) : ProfileFilter :=
  ProfileFilter.andThen (if n > 1 then erasing [0, 1, 2] else erasing [])
    (if n > 2 then clearAll else failIfEmpty)

/-- One sub-mix element of `FilterProfileForHeadphonesRenderingMode` (profile_filter.cc:286-314). -/
def filterHeadphones (mode : UInt8) : ProfileFilter :=
  ProfileFilter.andThen (erasing (if mode = 2 then [0, 1, 2] else if mode = 3 then [0, 1, 2, 3, 4, 5] else [])) failIfEmpty

/-- A filter for each member of a list. -/
def filterAll {α : Type} (f : α → ProfileFilter) : List α → ProfileFilter
  | [] => fun s => (.ok (), s)
  | a :: l => ProfileFilter.andThen (f a) (filterAll f l)

/-- All sub-mix elements in the order of the nested loops (profile_filter.cc:284-285, 468-470). -/
def MixPresentation.allElements (m : MixPresentation) : List SubMixElement := m.subMixes.flatMap SubMix.elements

/-- `CodecConfigInfo` (profile_filter.cc:345-348). -/
structure CodecInfo where
  samplesPerFrame : UInt32
  outputRate : UInt32
  deriving DecidableEq, Repr

/-- `codec_config_id_to_info`; the order of a `flat_hash_map` is unspecified and nothing below depends on it. -/
abbrev CodecInfos := List (UInt32 × CodecInfo)

/-- `emplace`: an existing entry is kept. -/
def CodecInfos.emplace (id : UInt32) (i : CodecInfo) (m : CodecInfos) : CodecInfos :=
  if (m.lookup id).isSome then m else m ++ [(id, i)]

/-- The elements of a sub-mix (profile_filter.cc:354-374): the map and `found_lpcm`, or `none` if an element is unknown. -/
def gatherElements (aes : List (UInt32 × ElementWithData)) : List SubMixElement → CodecInfos × Bool → Option (CodecInfos × Bool)
  | [], r => some r
  | e :: es, (m, lpcm) => match aes.lookup e.id with
    | none => none
    | some a => match a.codec with
      | none => none
      | some c => gatherElements aes es
          (m.emplace c.config.configId ⟨c.config.numSamplesPerFrame, c.outputRate⟩,
            lpcm || c.config.codecId == 0x6970636d)

/-- The sub-mixes from number `i` on (profile_filter.cc:352-387): condition A is checked after the first. -/
def gatherSubMixes (aes : List (UInt32 × ElementWithData)) : List SubMix → Nat → CodecInfos × Bool → Option (CodecInfos × Bool)
  | [], _, r => some r
  | s :: ss, i, r => match gatherElements aes s.elements r with
    | none => none
    | some r' => if i = 0 ∧ r'.1.length > 1 then none else gatherSubMixes aes ss (i + 1) r'

/-- Whether all entries agree with the first one (profile_filter.cc:426-445). -/
def sameInfo : CodecInfos → Bool
  | [] => true
  | (_, i) :: m => m.all fun x => x.2.samplesPerFrame == i.samplesPerFrame && i.outputRate == x.2.outputRate

/-- The profiles that support fewer than `n` of something, out of a table of limits. -/
def tooMany (table : List (UInt8 × Nat)) (n : Nat) : List UInt8 := (table.filter fun x => n > x.2).map Prod.fst

/-- `FilterProfilesForCodecConfigRules` (profile_filter.cc:340-448). -/
def filterCodecs (aes : List (UInt32 × ElementWithData)) (m : MixPresentation) : ProfileFilter :=
  match gatherSubMixes aes m.subMixes 0 ([], false) with
  | none => clearAll
  | some (infos, lpcm) =>
    ProfileFilter.andThen (erasing (tooMany [(0, 1), (1, 1), (2, 1), (3, 2), (4, 2), (5, 2)] infos.length))
      (if infos.length > 1 ∧ !lpcm then clearAll
       else if infos.isEmpty then clearAll
       else if sameInfo infos then fun s => (.ok (), s) else clearAll)

/-- `GetNumberOfChannels` (profile_filter.cc:450-457). -/
def ElementWithData.numChannels (e : ElementWithData) : Nat := (e.data.labels.map fun x => x.2.length).sum

/-- One element of `FilterAudioElementsAndGetNumberOfAudioElementsAndChannels` (profile_filter.cc:470-485). -/
def filterReferenced (aes : List (UInt32 × ElementWithData)) (e : SubMixElement) : ProfileFilter :=
  match aes.lookup e.id with
  | none => clearAll
  | some a => filterElement a.obu

/-- The number of channels counted (profile_filter.cc:484); only used when all elements are known. -/
def countChannels (aes : List (UInt32 × ElementWithData)) (m : MixPresentation) : Nat :=
  (m.allElements.map fun e => match aes.lookup e.id with
    | none => 0
    | some a => a.numChannels).sum

/-- `ProfileFilter::FilterProfilesForMixPresentation` (profile_filter.cc:589-625) with `FilterProfilesForNumAudioElements`
(490-521) and `FilterProfilesForNumChannels` (523-554). -/
def filterMix (aes : List (UInt32 × ElementWithData)) (m : MixPresentation) : ProfileFilter :=
  ProfileFilter.andThen (filterNumSubMixes m.subMixes.length) <|
  ProfileFilter.andThen (filterAll (fun e => filterHeadphones e.rendering.headphonesMode) m.allElements) <|
  ProfileFilter.andThen (filterCodecs aes m) <|
  ProfileFilter.andThen (filterAll (filterReferenced aes) m.allElements) <|
  ProfileFilter.andThen (ProfileFilter.andThen
    (erasing (tooMany [(0, 1), (1, 2), (2, 28), (3, 18), (4, 18), (5, 28)] m.allElements.length)) failIfEmpty)
    (ProfileFilter.andThen
      (erasing (tooMany [(0, 16), (1, 18), (2, 28), (3, 18), (4, 18), (5, 28)] (countChannels aes m))) failIfEmpty)

end Iamf
