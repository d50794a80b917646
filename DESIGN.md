# Formal model of AOMediaCodec/iamf-tools in Lean 4

## Trusted base

* Lean 4.33.0's kernel. No `axiom` of our own, no compiled evaluation (`native_decide`, `bv_decide`).
  `decide +kernel` is used only for closed finite computations: whole finite tables (all 32 OBU types,
  all 256 values of a byte, all layouts) and witnesses for existence or non-vacuity.
* Axioms: every theorem of MANIFEST.json depends on a subset of `propext`, `Classical.choice`,
  `Quot.sound` (the three standard axioms). At the last count most depend on all three, 16 on `propext, Quot.sound`
  only, 9 on `propext` only, one on none.
* The reading of the C++. The code was not run: each definition carries a comment citing the file and lines it
  models, and says what it simplifies.
* Only what is modelled is covered. A model definition that misreads the code makes its theorems theorems about
  something else; `seeded/LOG.jsonl` records how the theorems react to wrong programs.

### Modelling decisions that are part of the trusted base

* Fixed-width integers are Lean's `UInt8`, `UInt32`, `Int16`, … and wrap like the C++ ones; `int64_t`, `size_t` are
  unbounded (`Int`, `Nat`) where the code cannot reach their limits, and this is said at the definition.
* Outcomes that are not a status — a failed `CHECK`, undefined behaviour, an endless loop — are the values
  `abort`, `ub`, `diverge` of `Err`. Theorems that say "succeeds" or "fails with a status" exclude them.
* `double` arithmetic of demixing, gains and output samples is done in exact rationals (`Rat`); theorems about it
  say what the code computes up to rounding.
* `flat_hash_map` is a list in iteration order with distinct keys; theorems hold for every such order.
  `btree_map` is a list sorted by key.
* Files (C34) are modelled as content, write position and a schedule of faults, any of which may hit any write.
* Codecs, renderers, resampling and loudness measurement are not modelled. Where the decoder calls them they are
  the arbitrary functions of a `Backend` (`Cli/Decoder.lean`): theorems hold for every backend.
* Concurrency: the modelled classes have no threads; "schedules" are interleavings of calls by the user.
* Logging and counters for logging are left out.

## Architecture of the model (`lean/Verif`)

| module | code | content |
|--------|------|---------|
| `Base` | absl status | statuses `Err`, bit strings |
| `Leb` | `common/leb_generator` | ULEB128/SLEB128 generation |
| `WriteBuf` | `common/write_bit_buffer` | concrete buffer; writer programs `Wr` (syntax trees of calls), run concretely (`Wr.run`) and on bit strings (`Wr.runA`, `Wr.eval`), refinement `Wr.run_refines` |
| `ReadBuf` | `common/read_bit_buffer` | concrete windowed buffer, push, flush; reader programs `Rd`, concrete and abstract execution, refinement `Rd.run_refines` |
| `Prim` | both | typed read/write primitives; program logic (`Reads`, `RT`) for round trips |
| `Obu/Header`, `HeaderProofs`, `Inv`, `Stream` | `obu/obu_header`, `obu/obu_base` | header, sizes, peeking, footers |
| `Obu/Logic`, `Auto`, `Local` | – | safety of readers (`Sf`), prefix stability (`Stable`), locality (`Seq`, `Fwd`) |
| `Obu/Simple` | `ia_sequence_header`, `temporal_delimiter`, `arbitrary_obu`, `audio_frame`, `metadata_obu` | |
| `Obu/Params*`, `Bounded` | `param_definitions/*`, `parameter_block`, `*_parameter_data` | |
| `Obu/Codec*` | `codec_config`, `decoder_config/*` | |
| `Obu/AudioElement*` | `audio_element`, `ambisonics_config` | |
| `Obu/Mix*` | `mix_presentation`, `rendering_config`, `element_gain_offset_config` | |
| `Obu/Wire` | – | bit layouts as data, independent of the writers (for C30) |
| `Cli/Parameters` | `cli/parameters_manager` | demixing and recon gain state |
| `Cli/TemporalUnit` | `cli/temporal_unit_view` | |
| `Cli/Timing` | `cli/global_timing_module` | |
| `Cli/Labels` | `cli/obu_with_data_generator`, `channel_label` | substream labels of elements |
| `Cli/Selection` | `cli/obu_processor_utils` | mix and layout selection |
| `Cli/Profile` | `cli/profile_filter` | |
| `Cli/Demix` | `cli/demixer`, `demixing_manager`, `downmixer*` | over `Rat` |
| `Cli/Descriptors` | `cli/descriptor_obu_parser` | |
| `Cli/Processor`, `ProcessorProofs`, `ProcessorTrace`, `ProcessorWritten` | `cli/obu_processor`, `cli_util` | processing of temporal units; traces OBU by OBU |
| `Cli/Output` | `common/utils/sample_processing_utils`, `api/internal_utils`, `api/conversion/channel_reorderer` | samples to bytes, channel order |
| `Cli/Lpcm` | `cli/codec/lpcm_encoder`, `lpcm_decoder`, `encoder_base` | |
| `Cli/MixGain` | `common/utils/obu_util.h`, `GetLinearMixGains`, `GetParameterBlockLinearMixGainsPerTick` | exact arithmetic in any ordered field; 32-bit narrowing of times dropped |
| `Cli/Render` | `cli/renderer/audio_element_renderer_{base,passthrough,channel_to_channel,ambisonics_to_channel}.cc`, `renderer_factory.cc`, `renderer_utils.cc`, `loudspeakers_renderer.cc` | samples and gains are rationals; the tables of `cli/renderer/gains` and the binaural renderers are parameters (`RenderEnv`) |
| `Cli/MixRender` | `cli/renderer/default_layout_renderer.cc`, `layout_renderer_factory.cc`, `rendering_mix_presentation_finalizer.cc` (rendering part) | for the decoder; with loudness and sample processors see `Cli/Finalizer` |
| `Cli/Pipeline` | `cli/audio_frame_decoder.cc`, `codec/decoder_base.cc`, `obu_processor.cc` (rendering part), `demixing_manager.cc` | decoders other than LPCM are a parameter (`Codecs`); an instance of the `Backend` that `Cli/Decoder` is generic in |
| `Cli/Partition` | `cli/parameter_block_partitioner.cc`, `CreateSubblockScheduleFromMetadata` of `proto_conversion/proto_utils.cc`, `PartitionParameterMetadata` of `encoder_main_lib.cc` | protocol buffers are records; floats are numbers without rounding; times are unbounded |
| `Cli/SubstreamFrames` | `cli/substream_frames.h` | linked lists are lists of node numbers and iterators are node numbers, so that moving a node between lists keeps its iterators; counts fit `int` |
| `Cli/FrameGenerator` | `cli/proto_conversion/proto_to_obu/audio_frame_generator.{h,cc}`, `cli/downmixer_manager.cc`, the common part of `cli/codec/encoder_base.h` | the codecs are a parameter (`EncoderLib`), LPCM is instantiated; 64-bit counts of samples are unbounded; the order in which hash maps are iterated over is a parameter; a run ends with the first call that fails |
| `Cli/BlockGenerator` | `proto_to_obu/parameter_block_generator.cc`, `proto_utils.cc:134-152` | parameter blocks from metadata; the numbers computed by `recon_gain_generator.cc` are a parameter (see `Cli/ReconGain`); arithmetic on `double` is exact |
| `Cli/BlockMetadata` | `parameter_block_metadata_generator.cc` | a map is a list in any order |
| `Cli/CodecGenerator` | `codec_config_generator.cc`, `ia_sequence_header_generator.cc`, `ia_sequence_header_metadata_generator.cc`, `obu_header_metadata_generator.cc`, `GetHeaderFromMetadata` | the delay of an encoder is what the codec library says (any function); logging of deprecated fields is left out |
| `Cli/ElementGenerator` | `audio_element_generator.cc`, `GetParamDefinitionBaseArgs`, `CopyDemixingInfoParameterData` | logging is left out; what a recon gain definition remembers of its element (`aux_data_`, element id) is left out |
| `Cli/MixGenerator` | `mix_presentation_generator.cc`, `ProtoToQFormatOrFloatingPoint` | fields that only cause a warning are left out; a `float` is the rational number it stands for, or not finite |
| `Cli/ObuGenerator` | `arbitrary_obu_generator.cc`, `metadata_obu_generator.cc`, `CreateLebGenerator` | an enum is its number |
| `Cli/UserMetadata` | `IamfEncoder::Create` as a whole, from user metadata | the factories and the audio frame metadata (down-mixing, encoders, decoders, finalizer, other sequencers) are functions of the descriptor OBUs; hash maps are lists |
| `Cli/MetadataBuilder` | `cli/user_metadata_builder/*.cc`, `channel_label_utils.cc` | messages are empty before they are populated; the counter of substream ids has no bound; the metadata of the Opus encoder and names of files are left out |
| `Cli/AdmToMetadata` | `cli/adm_to_user_metadata/iamf/iamf.cc`, elements and frames of `user_metadata_generator.cc` | of objects only ids, first pack formats and complements; ids of programmes, gains, labels, loudness and the mix presentation metadata are left out; numbers of elements and mixes have no bound |
| `Cli/AdmMix` | `cli/adm_to_user_metadata/iamf/mix_presentation_handler.cc` | messages are empty before they are populated; finite floats are rational numbers; the ids of elements are given |
| `Cli/ReconGain` | `recon_gain_generator.cc` | levels, logarithms and roots are real numbers; infinities are modelled, rounding is a parameter |
| `Cli/AmbisonicsMixer` | `ambisonics_mixer.{h,cc}`, `sample_processor_base.cc`, `SampleProcessorToDownMixer`, `CreateAmbisonicsDownmixers`, the preset part of `audio_element_generator.cc` | samples are rational numbers; what is left of a mixer after a failed call is not modelled |
| `Cli/Encoder` | `iamf_encoder.cc` | the encoder after its descriptor OBUs are generated; decoding its own frames and measuring loudness are parameters (`EncoderParts`), with an instance in `Cli/Listener` |
| `Cli/Finalizer` | `cli/rendering_mix_presentation_finalizer.cc` | loudness calculators and post-processors are parameters (`Meters`, `PostProcessors`); the order of the hash map is a parameter |
| `Cli/Listener` | `iamf_encoder.cc` (83-97, 618-637), `demixing_manager.cc` | an instance of `EncoderParts`: the encoder decodes, demixes and measures its own frames; the recon gain generator stays a parameter |
| `Cli/Wav` | `wav_reader.cc`, `wav_sample_provider.cc`, `encoder_main_lib.cc` (101-112, 155-236) | the library that parses WAV files is a parameter (`WavLib`), assumed to deliver the samples in order (`HonestWav`); hash maps are iterated over in an order that is a parameter (`ToolOrder`); labels are parsed ones |
| `Cli/WavWriter` | `wav_writer.cc`, `sample_processor_base.cc`, `output_audio_format_utils.cc`, `encoder_main_lib.cc` (267-281) | the library that writes headers is a parameter (`WavHeaders`), assumed to write headers of one size for a format (`HonestHeaders`); files can be opened and written |
| `Cli/DecoderTool` | `decoder_main.cc` (177-294), `api/internal_utils/internal_utils.cc` (32-114) | flags are parsed, the input file can be read; `ABSL_LOG(FATAL)` is reported as an abort; loops have fuel, and running out of it is reported as divergence |
| `Cli/Decoder`, `DecoderTrace`, `DecoderForward`, `DecoderWhole`, `ProcessorWhole` | `api/decoder/iamf_decoder`, `api/conversion/mix_presentation_conversion` | decoder with abstract backend; both modes, `Reset`, `ResetWithNewMix`, getters; histories of calls |
| `Cli/Sequencer` | `cli/obu_sequencer_base`, `obu_sequencer_iamf`, `obu_sequencer_streaming_iamf` | writing to files with faults, to memory |
| `Props/*` | – | specifications and property theorems |

### Not modelled

`cli/codec/*` (but for LPCM and what C29 needs), gain tables and binaural renderers of `cli/renderer`, `cli/itu_1770_4`, `cli/adm_to_user_metadata` (but for C67),
`cli/ambisonic_encoder`, `cli/proto_conversion/*` (but for the generators of OBUs from metadata, `Cli/*Generator`, and see `Cli/Partition`), `cli/probe*`,
`*_main*.cc` (but see `Cli/Wav`, `Cli/DecoderTool`), printing functions; parts that the
comments of the model name.

## Per property

| id | what is modelled | how it is proved |
|----|------------------|------------------|
| C01, C31 | `leb_generator.cc` loops on machine words | induction over the loop against base-128 digits |
| C02 | `write_bit_buffer.cc` | representation invariant, refinement to bit strings |
| C03 | `read_bit_buffer.cc` | representation invariant, refinement to a cursor |
| C04 | typed primitives | round-trip relation closed under sequencing |
| C05 | stream buffer push/flush | simulation by a queue, induction over histories |
| C06, C07, C17 | `obu_header.cc` as `Wr`/`Rd` programs | round-trip relation, size arithmetic in `UInt32` |
| C08–C13 | each OBU's write and read functions as `Wr`/`Rd` programs | round-trip relation per field, composed |
| C14 | `obu_base.cc` | generic in the payload program |
| C15 | all `Rd` programs | safety predicate on programs, closed under sequencing |
| C16 | all `Rd` programs | prefix-monotonicity by induction over programs |
| C18 | `subblock_schedule.cc` | arithmetic invariants |
| C19, C26 | `parameters_manager.cc` | invariants over histories of calls |
| C20 | `temporal_unit_view.cc` | sorting of a duplicate-free key list is canonical |
| C21 | `descriptor_obu_parser.cc` | loop induction with C15/C16/C08–C11; locality of readers; histories of pushes |
| C22 | `global_timing_module.cc` | invariant over histories |
| C23 | `obu_processor_utils.cc` | decision logic stated outright |
| C24 | `profile_filter.cc` | decision logic stated outright |
| C25 | `iamf_decoder.cc`, `obu_processor.cc` | simulation: every history of calls is a position in one trace of the stream |
| C27 | `obu_with_data_generator.cc`, `channel_label.cc` | invariants of the labelling loops, for all layer structures; the loop equals a closed form over an independent table of added channels (`allLayers`), decided for all pairs of layouts; ambisonics and objects by induction over the mapping |
| C28 | `downmixer*.cc`, `demixer.cc` | algebra over `Rat`, induction over demixing steps |
| C29 | codec config validation and reading | equivalence with a separate legality predicate |
| C30 | all writers | each writer emits exactly a layout given as data, and fails otherwise |
| C32 | output of samples | algebra of rounding and clipping; layout by induction |
| C33 | `channel_reorderer.cc` | tables of loudspeakers given separately; permutation of any rendered frame |
| C34 | sequencers | invariants over histories of calls and faults |
| C35 | `obu_processor.cc` with the writers | induction over OBUs and units with the state of timing, parameters and the unit being collected |
| C36 | sequencer, parser, processor, decoder | composition of C34, C21, C35, C25 |
| C37 | `lpcm_encoder.cc`, `lpcm_decoder.cc`, `encoder_base.cc` | value of byte strings, for all samples and histories of calls |
| C38 | `obu_util.h`, `parameter_block.cc`, `default_layout_renderer.cc` | curves as a specification in any ordered field; the parameter that the code computes by a square root is shown to be on the curve; instance for the reals |
| C39 | `cli/renderer/*` (but gains, binaural) | loudspeaker places per label and sound system as an independent table; matrix products as sums; tables checked over all 256 values by the kernel, the rest by induction; gain tables assumed to have the right shape (`GoodEnv`) |
| C40 | `default_layout_renderer.cc`, `layout_renderer_factory.cc`, `rendering_mix_presentation_finalizer.cc`, `obu_with_data_generator.cc` | mix as a sum per channel and tick; invariant over all histories of temporal units (only the last rendered samples change); gains by C38; renderers by C39; over the rationals, so Bezier curves only where roots are exact (C38 says the same for the reals) |
| C41 | `audio_frame_decoder.cc`, `obu_processor.cc`, `demixing_manager.cc` and all of the above | composition of C37, C39 and C40 over all histories of units; then C36 and C32 for files and bytes |
| C42 | `parameter_block_partitioner.cc`, `proto_utils.cc`, `encoder_main_lib.cc` | the loop is a map over the cuts of the timeline; induction over timelines; C38 for the value at the cuts, C18 for schedules |
| C43 | `substream_frames.h` | the two linked lists and the iterators refine one queue per channel; induction over the operations |
| C44 | `audio_frame_generator.cc`, `downmixer_manager.cc`, `encoder_base.h`, `lpcm_encoder.cc` | an invariant that relates both queues of every substream (`Holds` of C43), the encoder, the timing module and the trimming counters to the rounds of samples that were given (`GeneratorQueue`…`GeneratorCreate`); induction over the calls; which parameter block a round of samples uses is part of the invariant (`GeneratorMixing`, `demixingOf`); the encoder is specified by `Faithful`, which is proved for LPCM (`GeneratorLpcm`) |
| C45 | `Props/BlockGenerator` | acceptance and content of every subblock, schedule and block as an equivalence with a specification that does not mention the generator; invariant over any history of the generator; for recon gains, placing by position is shown to be independent of the order when positions are distinct |
| C46 | `Cli/Encoder`; proved by an invariant over calls (`Props/EncoderLife`, `Props/Encoder`): phase, encoders gone, no OBUs left, flags of the mix presentations and sequencers. |
| C47 | `Cli/Encoder` with the frame generator, the block generator and the sequencers; the specification is a history of events (`Props/EncoderSpec`: `EncoderHistory`); proved by an invariant (`Props/EncoderRun`: `Inner`) kept by each call (`EncoderRun`, `EncoderOutput`), with the timing of parameter blocks and frames separated (`EncoderTiming`). The audio decoders, the recon gain source and the loudness finalizer are parameters. |
| C48 | The encoder of C47 with LPCM encoders (`lpcmEncoders`), one audio element, a file sequencer, no parameter blocks and no arbitrary OBUs in temporal units, and the decoder of C36 with the rendering pipeline of C41 for a layout it passes through. Proved by composing C47 (history), C44 (frames hold the samples), C34 (file), C36 and C41 (decoding); `Props/RoundTripCalls` computes what the generator gets, `Props/RoundTripUnits` splits frames into temporal units and joins outputs. |
| C49 | `Cli/Decoder` in the mode of `CreateFromDescriptors`; the specification is a queue (`UnitQueue`). `Cli/ProcessorWhole` shows that data of whole units, however much of it is in the buffer, is taken unit by unit (`Rest`); `Cli/DecoderWhole` lifts this to `DecodeOneTemporalUnit` (`Whole`); `Props/Contained` keeps the queue invariant over histories. The sequences and bytes are those of C34 to C36. Units whose samples are all trimmed are excluded: they leave no samples pending, and the units behind them then wait for the next `Decode`. |
| C50 | `Cli/Decoder`: `reset`, `resetWithNewMix`, the conversions of layouts. Stated as equality of the decoders, so that it holds for all later calls; proved by an invariant over histories of any calls (`Props/Reset`: `Contained`) and determinism of `CreateObuProcessor`. |
| C51 | No new model code: `standardBackend` and all calls of `Cli/Decoder`. `Props/History` keeps a property of the processor and the pending samples through any history of calls; `Props/BufferSize` shows that every renderer, gain and mix gives at most a frame of samples, all channels alike, and that the layout of the renderer is the one `GetNumberOfOutputChannels` is asked about. Binaural renderers are a parameter, assumed to give no more samples than they report (`HonestEnv`). |
| C52 | No new model code. The model has three fatal results (`Err.abort`, `.ub`, `.diverge`) wherever the code could hit an `ABSL_CHECK`, read out of range or through a null pointer, or not end. `Props/SafeUnit` shows by an invariant of the descriptors, timing and parameter state that reading units gives none of them, `Props/SafeRender` the same for decoding, demixing, rendering, gains and mixing, `Props/SafeInit` that whatever the parser accepts establishes the invariants, `Props/NoCrash` carries them through any history of calls. Only as good as the model's knowledge of undefined behaviour: arithmetic on doubles, allocation and third-party code (AAC, FLAC, Opus, binaural, `GoodEnv`, `MildCodecs`) are outside. `C52_android_order_can_crash` is F49. |
| C53 | No new model code. `SoundDescriptors`, `Chosen`, `Decodable` and `Announces` (`Props/SetUpParams`, `Props/SetUp`, `Props/Choice`) say in terms of the parsed descriptors what can be played and what is reported; proved equivalent to the success of collecting parameter definitions, of `ParametersManager`, `GlobalTimingModule`, profile filter, selection, decoders and demixers, by an invariant for each loop. Hypotheses: the renderer environment is total (`GoodEnv`), the user asks for profiles 0–5 and a layout of the API (`AskedFor`); what the other codecs take is a parameter (`Codecs.create`). |
| C54 | `Cli/Finalizer`; the specification (`Props/Finalizer`: `PreparedLayout`, `Renderings`, `Fed`, `AfterUnits`, `FinalizedAs`) follows one layout at a time; proved by relating the whole map to it entry by entry (`Forall₂`) through creation, units, flush and filling; histories of calls in `Props/FinalizerCalls`. Loudness calculators and post-processors are arbitrary. |
| C55 | `Cli/Listener` on top of `Cli/Encoder` and `Cli/Finalizer`; general part from the history of C47 and C54 (`Props/Listening`); for plain LPCM encoders the input units of C48 (`encoder_input`) are followed through demixing (no demixer), pass-through rendering (C39) and the mix (C40) (`Props/LoudnessOfInput`), example in `Props/LoudnessExamples`. |
| C56 | `Cli/Wav` on top of `Cli/Encoder`; invariant of a reader (what is left of the file and what is in the buffers) by induction over ticks, frames and elements (`Props/Wav`); the iterations of the program as calls of an encoder, induction over the loop (`Props/Tool`); for plain LPCM encoders the calls are a loop of C48, as calls after the last sample make no difference by C46 (`Props/WavRoundTrip`); examples and findings in `Props/WavExamples`. That the loop ends is a hypothesis (it returned). |
| C57 | `Cli/WavWriter`: invariant of a writer (what has been written, whether it was flushed or aborted), induction over calls (`Props/WavWriter`). `Cli/DecoderTool` on top of `Cli/Decoder`: any run that returns is a history of calls, by induction over the loops; for a stream that was written the loops end and nothing is left, because the processor of such a stream uses up all data that is there whenever it has nothing to give out (`Cli/DecoderEnd`, `Cli/DecoderPlay`), so by C25 and C36 all units were given out (`Props/DecoderTool`); examples and findings in `Props/DecoderToolExamples`. `Props/WavToWav` composes this with C56: a WAV file, encoded by the encoder program and decoded by the decoder program, comes out as a WAV file with the same samples. `Props/WavOfMix` composes it with C54: the WAV files that the encoder writes of its mix presentations hold what the renderers made of each temporal unit. |
| C58 | `Cli/ReconGain` over the reals: an equivalence with an inductive specification (`GainFor`) in terms of levels; the thresholds in dB become powers of ten by monotonicity of the logarithm; what follows for coding without loss, for the level after the gain and for gains above 1 (`Props/ReconGain`). |
| C59 | `Cli/AmbisonicsMixer`: the loops over the matrix are sums; the product of the two tables of 256 numbers is compared with the identity by evaluation in the kernel, and linearity extends the bound to all samples (`Props/AmbisonicsMixer`); with C27 and C39 the bound goes through labels, demixing matrix and renderer (`Props/AmbisonicsRender`). |
| C60 | `Cli/BlockMetadata`: the loop over flags is characterised by the bits of the flag; the data made of the metadata are characterised by the iff of C45 (`subblock_iff`), so the round trip holds in whatever order maps are iterated over (`Props/BlockMetadata`). |
| C61 | `Cli/CodecGenerator`: each step of the generator is characterised by what it copies, so that success with an OBU is equivalent to a relation between metadata and OBU (`GeneratedFrom`); the loop by induction; what is written is read by C09 (`Props/CodecGenerator`). |
| C62 | `Cli/ElementGenerator`: each step is characterised by an equivalence with what it copies or requires, so that success is equivalent to `SaysElement`; the loop by induction; what is written is read by C10; presets by C59 (`Props/ElementGenerator`). |
| C63 | `Cli/MixGenerator`: as C62, success is equivalent to `SaysMix`; the conversion of floating point gains is characterised by rounding towards zero; what is written is read by C11 (`Props/MixGenerator`). |
| C64 | `Cli/ObuGenerator`: success is equivalent to `SaysArbitrary` and `SaysMetadata`; what is written is read by C13 (`Props/ObuGenerator`). |
| C65 | `Cli/UserMetadata`: C61–C64 give descriptor OBUs that meet the conditions of C36 and C48 (`BuiltSequence`), the streaming sequencer of C47 writes them, and C21 and C36 read them (`Props/UserMetadata`). Elements with objects are left out: the reader makes no labels for them. |
| C66 | `Cli/MetadataBuilder`: for each layout the metadata are computed and go through the generators of C61 and C62 with symbolic ids, labels are those of C27; induction over the uses of a builder (`Props/MetadataBuilder`). |
| C67 | `Cli/AdmToMetadata`: the programmes are a fold over the state of `GenerateAudioObjectsMap`; groups of at most two objects are computed with symbolic ids and complements, elements by an invariant of the fold (`Props/AdmToMetadata`). |
| C68 | `Cli/AdmMix`: the metadata are put through the model of the generator (C63), element by element and layout by layout, for any objects (`Props/AdmMix`). |

Every property is stated in `properties.jsonl`; the file of a theorem begins with the specification it uses. Next to the theorems there
are concrete instances of their hypotheses.

## Findings

Behaviour of the code that a reader of its documentation would not expect. Those with a theorem name are proved about the model.

* F1. `StreamBasedReadBitBuffer::Create(0)` is accepted, but reading a whole byte then loops forever
  (`C03_capacity_zero_diverges`). `is_position_valid_` is not initialized.
* F2. `PeekObuTypeAndTotalObuSize`: the total wraps near 2^32 (`C07_peek_total_wraps`); `GetObuPayloadSize` has a sum that wraps.
* F3. `additional_profile` of the sequence header is not validated (`C08_additional_profile_unchecked`).
* F4. FLAC configs with more than 128 metadata blocks are written but cannot be read; a decoder config of another codec aborts
  (`C09_mismatched_decoder_config_aborts` and neighbours).
* F5. Audio elements: duplicate substream ids are written but refused on reading (`C10_duplicate_substream_written_but_rejected`);
  reserved types and `uint8_t` narrowing of counts (C10).
* F6. Mix presentations: asymmetries of writing and reading (C11); a rendering config, and so a mix presentation, can depend on data
  that follows the OBU (`C11_rendering_config_depends_on_following_data`, `C16_mix_presentation_depends_on_following_obu`,
  `C21_strange_stream_depends_on_arrival`).
* F7. Parameter definitions of mode 1 are not validated on reading (`C12_mode1_definition_unchecked`); blocks of extended definitions
  cannot be read, recon gains without flag are lost (`C12_unflagged_recon_gain_lost`).
* F8. Metadata: the ITU-T T.35 extension byte is dropped (`C13_itu_t35_extension_byte_dropped`).
* F9. A demixing parameter id shared by two elements breaks the second (`C19_shared_parameter_id_breaks_second_element`).
* F10. `TemporalUnitView`: the sum of trims wraps; the frame size is taken from the first frame only (`C20_trim_sum_wraps`,
  `C20_frame_size_depends_on_order`).
* F11. A refused request for a parameter block timestamp still advances (`C22_refused_block_still_advances`).
* F12. Mix selection of a channel-based element without layers reads `back()` of an empty vector (`C23_layers_needed`).
* F13. The profile 255 is never filtered by limits (C24), so a sequence header with that additional profile lets any mix through.
* F14. Decoder: a too small buffer loses the pending unit (`C25_small_buffer_loses_a_unit`); channel reordering depends on how data is
  pushed (`C25_reordering_depends_on_pieces`); empty units between delimiters can make it necessary to signal the end again
  (`C25_end_may_have_to_be_signalled_again`).
* F15. An expanded first layer followed by others is accepted and duplicates labels (`C27_expanded_layer_with_others_is_accepted`);
  objects get no labels, so that their frames are refused.
* F16. Output gains that the encoder divides out are never applied by the decoder (`C28_output_gain_is_not_undone`).
* F17. Sequencer: differing bit depths are accepted; delayed units can get lost; updating descriptors in that state skips the
  first descriptors; a refused call after closing destroys retrievable descriptors (C34).
* F18. Parameter blocks of a parameter that starts late are dropped without an error (`C35_late_parameter_is_dropped`).
* F19. The processor never passes parameter blocks to the parameters manager, so that the decoder demixes with defaults (visible in the
  statement of C35: `defaultMixing`).
* F20 (not proved). `FloatToQ7_8` truncates though its documentation says that it rounds down; the descriptor parser can return
  ResourceExhausted without its flag; `MaybeRemoveFile` logs an error on success; an error message of `Leb128ToUint8Vector` names a wrong
  size; `GetDownMixingParameters` reads `subblocks_[0]` unchecked.
* F21. Channel reordering for sound system F accepts 11 channels although the layout has 12 (C33).
* F22. LPCM encoder: the length of the second channel is not checked (`C37_short_second_channel`); a finalized encoder takes more frames
  while some are pending (`C37_encoding_after_finalize`).
* F23. Mix gain interpolation narrows times to `int` (obu_util.h): subblocks of 2^31 ticks or more are outside what C38 says.
* F24. Ambisonics mono mode: a channel mapping that uses one substream for two channels is accepted, but no renderer can be made for it, so
  the element stays silent (`C39_doubled_substream_has_no_renderer`).
* F25. Mix gains are counted from the first sample that is kept: with samples trimmed at the start of a frame, an animation is applied
  too late by as many ticks (`C40_trimming_shifts_gains`).
* F26. An audio element without a frame in a temporal unit is mixed again from the samples of the last one, to which its gain is applied
  once more (`C40_missing_frame_repeats_sound`).
* F27. A parameter block that no mix uses makes rendering of a temporal unit fail if its times differ (`C40_unused_block_spoils_unit`).
* F28. `ParameterBlockPartitioner` casts 32-bit gains to 16 bits without a check, so a gain that the parameter block generator would refuse is wrapped to another one, e.g. 65541 to 5 (`C42_gains_out_of_range_are_wrapped`).
* F29. `SubstreamFrames::PopFront` while a channel is ahead of another moves the frame of the slower channel's iterator to the recycled list; the next sample of that channel is then written through an iterator past the end of that list (`C43_unequal_channels_break_the_queue`). The generator keeps the channels equal.
* F30. `AudioFrameGenerator`: samples that the user asks to trim at the end are silently not trimmed if all frames were put out before `Finalize` (codecs without delay; `C44_end_trim_may_be_lost`).
* F31. With a codec delay, `Finalize` before the first complete set of samples leaves `GeneratingFrames()` true for ever, without frames (`C44_codec_delay_without_samples_never_ends`).
* F32. A block shorter than a frame in the middle of a stream is padded at once; its padding is trimmed from that frame and once more from the last one, so real samples get lost (`C44_short_block_is_trimmed_twice`).
* F33. With a codec delay, elements whose last blocks need different numbers of frames fail or succeed depending on the iteration order of a hash map (`C44_end_depends_on_iteration_order`).
* F34. An audio element without audio frame metadata aborts the program when flushing; without any metadata, the generator keeps a reference to a temporary map and `OutputFrames` uses it (`C44_missing_metadata_crashes`).
* F35. Labels are not compared with the listed ones: samples for an unlisted label after a complete round make a frame of silence (`C44_unlisted_label_makes_silence`); channels of unequal lengths break `SubstreamFrames` (F29).
* F36. (by reading) `IamfEncoder::Encode` called twice before `OutputTemporalUnit` replaces the samples cached by the first call; `CollectLabeledSamplesForAudioElements` of `encoder_main_lib.cc` overwrites `no_more_real_samples` for each element.
* F37. A scalable element whose layers go from mono to three or more surround channels (or from stereo to 7.x) adds two demixed channels with the same recon gain position (R2 and R3, or L3 and L7): `ConvertReconGainsAndFlags` writes both to the same entry, and which one stays depends on the iteration order of a hash map (example at the end of `Props/BlockGenerator`).
* F38. The recon gains given by the user are narrowed to 8 bits without a check (`GenerateReconGainSubblock`); their positions are not checked either: a position of 12 or more is written out of bounds, and for one layer the number of layers is not compared with the definition.
* F39. `static_cast<uint8_t>` of a measured recon gain above 1 (possible when the decoded signal is weaker than the original) is undefined (`C58_weak_channels_are_undefined`).
* F40. `Encode` called twice before `OutputTemporalUnit` overwrites the samples given first for the same channel; they are lost without notice (`C47_samples_may_be_lost`; iamf_encoder.cc:491-505).
* F41. An arbitrary OBU whose insertion tick is no start of a frame makes `OutputTemporalUnit` fail after the last frame, unless it is marked as invalidating the bitstream and its hook is not one of temporal units; the sequencers are then never finalized (`C47_late_arbitrary_obus_fail`; temporal_unit_view.cc:163-187).
* F42. `OutputTemporalUnit` leaves the caller's vector as it is when no temporal unit is produced; with the documented loop, which reuses one vector, the bytes of the previous unit would be sent again (`C47_stale_bytes`; iamf_encoder_interface.h usage, iamf_encoder.cc:545-575).
* F43. Recon gains whose metadata are given ahead of the frames they belong to (codecs that put frames out late) are all measured from the first temporal unit that is decoded afterwards, not from their own (C47, `MadeOf`; iamf_encoder.cc:600-612).
* F44. After `FinalizeEncode`, a call that yields no frames although frames are still to come writes the pending arbitrary OBUs with the smallest tick, even if a later frame has that tick (C47, `FramelessUnit`; iamf_encoder.cc:549-575).
* F45. `GetOutputMix` and `ResetWithNewMix` fail for a layout with sound system 14 (7.1.5.4, which has no `OutputLayout`), although decoding works and `ResetWithNewMix` has already replaced the decoder (C50; mix_presentation_conversion.cc:54-94, iamf_decoder.cc:582-586).
* F46. A failed `ResetWithNewMix` keeps the mix that was asked for, the old `ObuProcessor`, and the descriptors in the buffer: a later `Decode` pushes temporal units behind unread descriptors (`C50`, `reset`; iamf_decoder.cc:571-590).
* F47. If the bytes given to `CreateFromDescriptors` contain a second sequence header, parsing stops before it; the rest stays in the buffer as if it were temporal units, but `Reset` uses only the first part, so that `Reset` and creation differ (C50 says: a beginning of the bytes; iamf_decoder.cc:150-160).
* F48. `GetFrameSize` fails when the descriptors have two codec configs, so for such a stream the documented size of the buffer cannot be computed although decoding works (`C51` says nothing then).
* F49. (crash) A temporal unit which has only parameter blocks (delimiter, parameter block, delimiter) is rendered as an empty list of channels. With the Android channel order and a sound system that is reordered, `ChannelReorderer::Reorder` refuses it and the `ABSL_CHECK` in `iamf_decoder.cc:234-238` aborts the process. The same happens for a layout for which no renderer could be made.
* F50. Mono ambisonics that uses one substream for three or more channels is read without complaint, but a decoder for it cannot be set up, since the number of labels of a substream is taken for its number of channels (`ChoiceExamples`, `exampleFlatScene`).
* F51. A decoder created from descriptors that is given a temporal unit in two pieces plays the pieces as two units (each `Decode` call ends with the end of a unit); the header asks for whole units.
* F52. Recon gains are read and checked, but the decoder never applies them (`GetDemixedChannelLabelForReconGain` is unused by the decoder); the generator of recon gains compares the square roots of mean squares where the specification has powers (`C58_the_gain_does_not_restore_the_level`).
* F53. `ParameterBlockGenerator`/`iamf_encoder.cc`: parameter blocks that remain when the encoder finishes are never written and not reported.
* F54. A layout that cannot be rendered, in a mix presentation with another layout that can, still has a loudness calculator: the loudness that the user has given for it is replaced by that of no samples (`C54_loudness_of_unrendered_layout_is_lost`), while the comment in `rendering_mix_presentation_finalizer.cc` says it is kept.
* F55. After `GetFinalizedMixPresentationObus` has failed because the loudness is not as given by the user, a second call succeeds without comparing (`C54_second_request_is_not_validated`).
* F56. Mix presentations with the same id: if the first cannot be rendered and a later one can, the first is filled with the data of the later one, possibly out of range (`C54_doubled_id_is_accessed_out_of_range`).
* F57. The encoder measures loudness on the samples before encoding (`DemixOriginalAudioSamples`), so for lossy codecs the loudness in the file is not that of what will be played.
* F58. `encoder_main_lib.cc:199-208`: metadata of a parameter block is kept and given to the encoder again with every following frame until it is replaced or the WAV files end; the program fails for user metadata with a parameter block for one frame and none for the next, which the encoder itself takes (`C56_frames_without_parameter_blocks_fail`).
* F59. `encoder_main_lib.cc:101-112`: whether all samples were read is what the last audio element in the order of a hash map says, so with WAV files of different lengths the end is that of an arbitrary one (`C56_the_end_depends_on_the_order`).
* F60. `wav_reader.cc:136-147`: `ReadFrame` compares the number of samples of all ticks so far to the number of channels, so an incomplete tick is not noticed after the first one and stale samples are put in the buffers; harmless because the caller divides the count by the number of channels. If a WAV file ends within a tick after a whole number of frames, the program reads another, empty frame (`C56_an_incomplete_tick_makes_an_empty_frame`).
* F61. `decoder_main.cc:240-256`: the program signals the end once and then asks for output while there is any. A temporal unit without audio frames gives no output, so if there are such units in the last block then the units behind them are lost without a report, and what is in the output file depends on the block size (`C57_units_may_be_lost`).
* F62. `decoder_main.cc:289-294`: an input file without descriptors, or with incomplete ones, is decoded with `EXIT_SUCCESS` and without an output file (`C57_no_descriptors_no_file`).
* F63. `decoder_main.cc:177-186`: `--block_size=0` makes a loop without end (`C57_blocks_of_nothing`).
* F64. `wav_writer.cc:226-230`: `Abort` after `Flush` (or after `Abort`) calls `fclose` with a null pointer (`C57_abort_after_flush`, `C57_which_calls_are_accepted`).
* F65. `wav_writer.cc:121-170`: if the header cannot be written then `Create` returns null, but leaves an empty file on the disk and does not close it (`C57_files_left_behind`).
* F66. `ambisonics_mixer.cc:163-190`: the mixing matrix for third order ambisonics in Opus can make a channel four times as large as the largest of the input (`C59_level_of_mixed_channels`, `C59_mixing_can_overload`); the conversion to integers cuts it off, so input above a quarter of full scale may be distorted without any status.
* F67. `parameter_block_metadata_generator.cc:124-131`: flags for recon gains at positions above the twelfth, which a bitstream may have, are dropped without any status (`C60_unknown_positions_are_dropped`).
* F68. `obu_header_metadata_generator.cc:38-41`: bytes of the extension of an OBU header are cast from `uint8_t` to `char`; where `char` is signed this fails for every byte above 127, although the header is legal (`C61_sequence_header_metadata`, `C61_extension_bytes`).
* F69. `codec_config_generator.cc:399`: `emplace` drops the second of two codec configs with the same id without any status (`C61_codec_configs`, `C61_same_id_is_dropped`); audio elements that were meant for it use the first.
* F70. `codec_config_generator.cc:336`: the delay of the encoder has 32 bits and is narrowed to 16 without a check (`C61_large_delay_wraps`).
* F71. `audio_element_generator.cc:586-624`: parameters of an object based element are dropped without any status (`C62_objects_lose_parameters`); blocks for them are refused later, because the definition is unknown.
* F72. `audio_element_generator.cc:360, 404, 569, 605`: `reserved` of the element and `num_objects` are narrowed from 32 to 8 bits without a check, unlike all other fields (257 objects are one object), and `reserved` of the channel layout is never copied (`C62_reserved_bits_are_narrowed`, `C62_objects_are_counted_in_a_byte`, `C62_reserved_bits_of_layouts_are_dropped`).
* F73. `audio_element_generator.cc:136-143, 157-164`: a demixing or recon gain definition with several subblocks in a frame passes, but the element can then not be written (`C62_two_subblocks_are_not_written`); with a list of durations, `duration` of the metadata is not looked at.
* F74. `mix_presentation_generator.cc:461-492, 770-774`: `include_mix_presentation_tags: false` does not leave the tags of the metadata out as soon as the build tag is appended, which is the default (`C63_left_out_tags_are_written`).
* F75. `mix_presentation_generator.cc:84-192`: coordinates of positions are narrowed from 32 to 16 or 8 bits without a check, unlike all other numbers: an azimuth of 65566 degrees becomes one of 30 (`C63_positions_wrap`).
* F76. `mix_presentation_generator.cc:699-802`: an element that is in a presentation twice, or a sub-mix without a stereo layout, is refused only when the presentation is written (`C63_unwritable_presentations_are_made`).
* F77. `metadata_obu_generator.cc:30-38`: country code and extension byte of ITU-T T.35 metadata are narrowed from 32 to 8 bits without a check: 436 becomes 180, and 511 becomes 255 without its extension byte, which is refused only when the OBU is written (`C64_country_codes_are_narrowed`).
* F78. `obu_with_data_generator.cc:602-642`: labels are made for elements with objects when they come from metadata (`audio_element_generator.cc:618`), but not when their OBUs are read, so the decoder refuses each of their audio frames (`C65_objects_are_not_played`).
* F79. `iamf_input_layout.cc:29-43`: identifiers of ADM pack formats are hexadecimal but compared as text, one with a small and one with capital letters, so `AP_0001000F` is refused (`C66_pack_formats_are_compared_as_text`).
* F80. `iamf.cc:45-91`: `GenerateAudioObjectGroups` takes the groups by reference and empties them in its first recursive call, so of two objects of which the second has complements, each complement is mixed alone, without the first object (`C67_choices_lose_objects`, `C67_mixes_exactly`).
* F81. `iamf.cc:163-171`: after a programme with more than two objects its groups stay, so all later programmes are skipped too (`C67_later_programmes_are_lost`; a TODO in the code names this one).
* F82. `user_metadata_generator.cc:111-124, 168-187`: element ids count objects as programmes name them, layouts are in the order of the file, and frames take layouts in the order of object ids, so elements and their frames can get layouts of other objects (`C67_layouts_are_exchanged`).
* F83. `iamf.cc:216`: the product of milliseconds and samples per second wraps at 32 bits (`C67_frame_size_wraps`).
* F84. `mix_presentation_handler.cc:155-161, 241-245`: element and output mix gains share parameter id 0 but not their defaults, so a mix with an object of a gain other than 0 dB is refused when parameter definitions are collected (`C68_gains_clash`).
