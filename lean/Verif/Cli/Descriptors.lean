import Verif.Cli.Labels
import Verif.Obu.Mix
/-
  Model of iamf/cli/descriptor_obu_parser.cc and of the containers in iamf/cli/descriptor_obus.h.
-/
namespace Iamf

/-- `DescriptorObus` (descriptor_obus.h:29-50).  The maps keyed by id are association lists in order of insertion.  `iaHeader` also stands for the local
`processed_ia_header` (descriptor_obu_parser.cc:156), and its header for `stored_ia_header_is_redundant` (line 161), which
are assigned together with it (lines 237-240).  Headers and footers of the other OBUs are not kept, nor are metadata OBUs
(the parser bypasses them). -/
structure Descriptors where
  iaHeader : Option (ObuHeader × IaSequenceHeader)
  codecs : List (UInt32 × CodecObu)
  elements : List (UInt32 × ElementWithData)
  mixes : List MixPresentation
  deriving DecidableEq

def Descriptors.empty : Descriptors := ⟨none, [], [], []⟩

/-- `ReadBitBuffer::IgnoreBytes` (read_bit_buffer.cc:338-340). -/
def rIgnoreBytes {α : Type} (n : Int) (k : Rd α) : Rd α := .tell fun p => .seek (p + n * 8) k

/-- `kSmallestAcceptedCodecConfigSize` (descriptor_obu_parser.cc:42). -/
def kSmallestAcceptedCodecConfigSize : Int := 8

/-- `GetAndStoreCodecConfigObu` (descriptor_obu_parser.cc:46-70).  `payload_size` is not negative here (C15), so the cast to
`size_t` does not matter.  `insert` keeps an entry that is already there. -/
def storeCodecConfig (d : Descriptors) (size : Int) : Rd Descriptors :=
  if size < kSmallestAcceptedCodecConfigSize then rIgnoreBytes size (.ret d)
  else (CodecConfig.createFromBuffer size).bind fun r =>
    let c : CodecObu := ⟨r.1.1, r.2.1, r.2.2.1, r.2.2.2⟩
    match d.codecs.lookup c.config.configId with
    | some _ => .ret d
    | none => .ret { d with codecs := d.codecs ++ [(c.config.configId, c)] }

/-- `GetAndStoreAudioElement` (descriptor_obu_parser.cc:72-101). -/
def storeAudioElement (d : Descriptors) (size : Int) : Rd Descriptors :=
  (rObuPayload AudioElement.read size).bind fun r =>
    match generateElement d.codecs r.1 with
    | .error e => .fail e
    | .ok w =>
      match d.elements.lookup w.obu.elementId with
      | some _ => .fail .invalidArgument
      | none => .ret { d with elements := d.elements ++ [(w.obu.elementId, w)] }

/-- `GetAndStoreMixPresentationObu` (descriptor_obu_parser.cc:103-129). -/
def storeMixPresentation (d : Descriptors) (h : ObuHeader) (size : Int) : Rd Descriptors :=
  (rObuPayload (MixPresentation.read h.optionalFieldsFlag) size).bind fun r =>
    if r.1.subMixes.all fun s => s.elements.all fun e => (d.elements.lookup e.id).isSome then
      .ret { d with mixes := d.mixes ++ [r.1] }
    else .fail .invalidArgument

/-- The cases of the switch whose status ends up in `parsed_obu_status` (descriptor_obu_parser.cc:243-277). -/
def storeOther (d : Descriptors) (h : ObuHeader) (size : Int) : Rd Descriptors :=
  if h.obuType = ObuType.codecConfig then storeCodecConfig d size
  else if h.obuType = ObuType.audioElement then storeAudioElement d size
  else if h.obuType = ObuType.mixPresentation then storeMixPresentation d h size
  else .fail .unimplemented

/-- The `default` case of the switch (descriptor_obu_parser.cc:278-281): everything but IA sequence headers, codec configs,
audio elements, mix presentations, metadata and types 25 to 30. -/
def isUnexpectedDescriptor (t : ObuType) : Bool :=
  !(t == ObuType.sequenceHeader || t == ObuType.codecConfig || t == ObuType.audioElement ||
    t == ObuType.mixPresentation || t == ObuType.metadata || (decide (25 ≤ t) && decide (t ≤ 30)))

/-- Whether an IA sequence header starts a new sequence (descriptor_obu_parser.cc:225-231). -/
def startsNewSequence (d : Descriptors) (h : ObuHeader) : Bool :=
  match d.iaHeader with
  | none => false
  | some (stored, _) => !h.redundantCopy && !stored.redundantCopy

/-- The loop of `ProcessDescriptorObus` (descriptor_obu_parser.cc:163-304).  The result `none` stands for the status
ResourceExhausted together with `output_insufficient_data = true`; in every other case the flag is false.  (If the `Seek` of
`InsufficientDataReset` failed, the flag would be true with another status; C21 shows that it does not fail.)  The first
argument bounds the number of iterations; running out of it is reported as divergence, and C21 shows that this does not
happen with the bound used by `parseDescriptors`. -/
def descriptorLoop (exact : Bool) (start : Int) : Nat → Descriptors → Rd (Option Descriptors)
  | 0, _ => .fail .diverge
  | fuel + 1, d =>
    let next (d' : Descriptors) : Rd (Option Descriptors) :=
      if d'.iaHeader.isNone then .fail .invalidArgument
      else if exact then .avail fun n => if n > 0 then descriptorLoop exact start fuel d' else .ret (some d')
      else descriptorLoop exact start fuel d'
    let stop (pos : Int) : Rd (Option Descriptors) :=
      .seek pos (if d.iaHeader.isNone then .fail .invalidArgument else .ret (some d))
    .attempt ObuHeader.peek fun
      | .error e => if e = .resourceExhausted then .seek start (.ret none) else .fail e
      | .ok m =>
        if isTemporalUnitObuType m.1 then
          if exact then .seek start (.fail .invalidArgument)
          else if d.iaHeader.isNone then .fail .invalidArgument
          else .ret (some d)
        else .avail fun n =>
          if n < m.2 then .seek start (.ret none)
          else .tell fun pos => ObuHeader.read.bind fun hs =>
            if hs.1.obuType = ObuType.sequenceHeader then
              if startsNewSequence d hs.1 then stop pos
              else (rObuPayload IaSequenceHeader.read hs.2).bind fun r => next { d with iaHeader := some (hs.1, r.1) }
            else if isUnexpectedDescriptor hs.1.obuType then stop pos
            else .attempt (storeOther d hs.1 hs.2) fun
              | .ok d' => next d'
              | .error _ => .seek pos (rIgnoreBytes m.2 (next d))

/-- `DescriptorObuParser::ProcessDescriptorObus` (descriptor_obu_parser.cc:147-307).  Every iteration consumes an OBU, so that
there are at most as many as there are bytes. -/
def parseDescriptors (exact : Bool) : Rd (Option Descriptors) :=
  .tell fun start => .avail fun n => descriptorLoop exact start (n.toNat + 1) .empty

end Iamf
