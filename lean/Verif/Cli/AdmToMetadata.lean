import Verif.Cli.MetadataBuilder
/-
  From ADM to metadata: iamf/cli/adm_to_user_metadata/iamf/iamf.cc and the elements and frames of user_metadata_generator.cc.
-/
namespace Iamf

/-- `AudioObject` (adm_elements.h:82-97): its id, the first of its pack formats and its complementary objects; an object without pack formats
(on which the code reads out of bounds) has none here. -/
structure AdmObject where
  id : String
  pack : String
  complementary : List String
  deriving DecidableEq, Repr

/-- `AudioContent` (adm_elements.h:75-79): its id and the ids of its objects. -/
structure AdmContent where
  id : String
  objects : List String
  deriving DecidableEq, Repr

/-- `ADM` (adm_elements.h:35-43): programmes as the ids of their contents, contents and objects. -/
structure Adm where
  programmes : List (List String)
  contents : List AdmContent
  objects : List AdmObject
  deriving DecidableEq, Repr

/-- `HasComplementaryObjectIdAndAudioObjectGroup` (iamf.cc:36-39). -/
structure AdmGroup where
  complementary : Bool
  ids : List String
  deriving DecidableEq, Repr

/-- The loop over the objects of a group (iamf.cc:62-76): `rest` generates the lists of the other groups and leaves `audio_object_groups`,
which it is given by reference. -/
def eachChoice (rest : List AdmGroup → List (List String) × List AdmGroup) : List String → List AdmGroup → List (List String) × List AdmGroup
  | [], gs => ([], gs)
  | id :: ids, gs =>
    let o := rest gs
    let o' := eachChoice rest ids o.2
    (o.1.map (fun l => l ++ [id]) ++ o'.1, o'.2)

/-- `GenerateAudioObjectGroups` (iamf.cc:45-91), with what it leaves of its argument, which it takes by reference.  The argument is a list of
groups from the last to the first; `fuel` bounds the depth of the recursion, which is at most the number of groups. -/
def objectLists : Nat → List AdmGroup → List (List String) × List AdmGroup
  | 0, gs => ([[]], gs)
  | _ + 1, [] => ([[]], [])
  | fuel + 1, g :: gs =>
    if g.complementary then eachChoice (objectLists fuel) g.ids gs
    else
      let o := objectLists fuel gs
      (o.1.map (fun l => l ++ [g.ids.headD ""]), o.2)

/-- One object of a programme (iamf.cc:129-158). -/
def addAdmObject (s : List AdmGroup × List String) (o : AdmObject) : List AdmGroup × List String :=
  if s.2.contains o.id then s
  else if o.complementary.isEmpty then (s.1 ++ [⟨false, [o.id]⟩], s.2)
  else (s.1 ++ [⟨true, o.id :: o.complementary⟩], s.2 ++ o.complementary)

/-- The objects that the loops over a programme (iamf.cc:116-133) come to, in that order. -/
def Adm.referenced (adm : Adm) (programme : List String) : List AdmObject :=
  programme.flatMap fun c => (adm.contents.filter (fun k => k.id == c)).flatMap fun k =>
    k.objects.flatMap fun i => adm.objects.filter (fun o => o.id == i)

/-- The variables of `GenerateAudioObjectsMap` (iamf.cc:98-110).  `audio_object_to_audio_element` is the list of its keys in the order of
insertion: the value of a key is its position. `mix_presentation_id_to_audio_objects_and_metadata` is the list of its values: keys are positions. -/
structure AdmState where
  groups : List AdmGroup
  ignored : List String
  elements : List String
  mixes : List (List AdmObject × Nat)
  deriving DecidableEq, Repr

/-- `map.insert({id, map.size()})` (iamf.cc:184-185): a key that is already present is left. -/
def insertObject (elements : List String) (id : String) : List String := if elements.contains id then elements else elements ++ [id]

/-- One programme of `GenerateAudioObjectsMap` (iamf.cc:112-200). -/
def addProgramme (adm : Adm) (s : AdmState) (programme : List String × Nat) : AdmState :=
  let g := (adm.referenced programme.1).foldl addAdmObject (s.groups, s.ignored)
  if 2 < g.1.length then { s with groups := g.1, ignored := g.2 }
  else
    let lists := (objectLists g.1.length g.1.reverse).1
    { groups := [], ignored := [], elements := lists.flatten.foldl insertObject s.elements,
      mixes := s.mixes ++ lists.map fun ids => (ids.flatMap fun i => adm.objects.filter (fun o => o.id == i), programme.2) }

/-- `GenerateAudioObjectsMap` (iamf.cc:98-201). -/
def Adm.objectsMap (adm : Adm) : AdmState := adm.programmes.zipIdx.foldl (addProgramme adm) ⟨[], [], [], []⟩

/-- `ComputeNumSamplesPerFrame` (iamf.cc:205-220): a product of 32 bits, divided by 1000 in `double`; as the product is below 2^32 the
division rounded to a `double` has the same integer part as the exact one. -/
def samplesPerFrameFor (milliseconds rate : UInt32) : Except Err UInt32 :=
  if rate = 0 ∨ milliseconds = 0 then .error .invalidArgument else .ok (milliseconds * rate / 1000)

/-- The layouts of `IAMF::Create` (iamf.cc:246-257): those of all objects, in order. -/
def Adm.layouts (adm : Adm) : Except Err (List InputLayout) := castAll (fun o => inputLayoutFromPackFormat o.pack) adm.objects

/-- Insertion into a `std::map` that is iterated over in the order of its keys (bytes of UTF-8, which are ordered as code points are). -/
def insertKey (e : String × Nat) : List (String × Nat) → List (String × Nat)
  | [] => [e]
  | x :: xs => if e.1 < x.1 then e :: x :: xs else x :: insertKey e xs

/-- `audio_object_to_audio_element_` (iamf.h:57) as it is iterated over: in the order of the keys, with the values. -/
def sortedElements (elements : List String) : List (String × Nat) := elements.zipIdx.foldr insertKey []

/-- The elements of `GenerateUserMetadata` (101-124), as uses of the builder; `none` where the code reads past the
end of the layouts. -/
def Adm.elementRequests (adm : Adm) (layouts : List InputLayout) : Option (List ElementRequest) :=
  if adm.programmes.isEmpty then layouts[0]?.map fun l => [⟨0, 0, l⟩]
  else (sortedElements adm.objectsMap.elements).mapM fun e => layouts[e.2]?.map fun l => ⟨UInt32.ofNat e.2, 0, l⟩

/-- The frames of `GenerateUserMetadata` (157-187): elements with their layouts; `none` as above. -/
def Adm.frameRequests (adm : Adm) (layouts : List InputLayout) : Option (List (UInt32 × InputLayout)) :=
  if adm.programmes.isEmpty then layouts[0]?.map fun l => [(0, l)]
  else (sortedElements adm.objectsMap.elements).zipIdx.mapM fun e => layouts[e.2]?.map fun l => (UInt32.ofNat e.1.2, l)

end Iamf
