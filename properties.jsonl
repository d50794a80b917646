{"id": "C01", "title": "ULEB128 generation is correct, minimal or exactly sized", "statement": "LebGenerator returns a complete LEB128 string whose value is the input; in minimum mode no shorter string exists and it never fails; in fixed-size mode the size is exact and it fails with InvalidArgument exactly when the value does not fit.", "quantifier": "every generator the factory can create and every 32-bit value", "why_tests_cant": "2^32 values times nine generators; minimality quantifies over all alternative encodings", "anchors": ["iamf/common/leb_generator.cc: LebGenerator::Create, Uleb128ToUint8Vector, Leb128ToUint8Vector"]}
{"id": "C02", "title": "The write buffer is an append-only bit string", "statement": "Any sequence of writes appends exactly the bits it specifies (also when it stops with an error), never alters earlier bits, and keeps the byte vector zero padded and tight; a single literal write is all-or-nothing.", "quantifier": "every earlier history of writes (any alignment), every further write sequence", "why_tests_cant": "alignment/size/history combinations are unbounded", "anchors": ["iamf/common/write_bit_buffer.cc: WriteUnsignedLiteral, InternalWriteUnsigned, WriteUint8Span"]}
{"id": "C03", "title": "The read buffer behaves like a cursor, whatever its internal capacity", "statement": "Reads, seeks, tells and availability queries return what a plain cursor over the source bits returns; refilling the internal window is unobservable; the buffer logic never aborts, diverges or reads out of range.", "quantifier": "every source, every capacity > 0, every sequence of read/seek/tell calls", "why_tests_cant": "window boundary x alignment x length combinations are unbounded", "anchors": ["iamf/common/read_bit_buffer.cc: ReadUnsignedLiteralInternal, Seek, Tell, NumBytesAvailable, LoadBytesToBuffer"]}
{"id": "C04", "title": "Typed values survive a write/read round trip", "statement": "Whatever mix of literals, signed values, booleans, ULEB128s, strings, byte spans and ISO 14496-1 sizes is successfully written at whatever bit offset is read back identically through a buffer of any capacity, and reading stops exactly at the end.", "quantifier": "every list of typed values, start offset, LEB generator, capacity and trailing data", "why_tests_cant": "unbounded sequences and alignments", "anchors": ["iamf/common/write_bit_buffer.cc", "iamf/common/read_bit_buffer.cc"]}
{"id": "C05", "title": "A stream buffer is a FIFO queue of bits", "statement": "With any interleaving of pushes, flushes and reads, reads return the next bits of everything pushed; reading too much fails with ResourceExhausted and consumes nothing; flushing and window refills are unobservable.", "quantifier": "every operation history within the documented total size", "why_tests_cant": "histories are unbounded", "anchors": ["iamf/common/read_bit_buffer.cc: StreamBasedReadBitBuffer::PushBytes, Flush"]}
{"id": "C06", "title": "OBU header round trip and size accounting", "statement": "If writing an OBU header succeeds, reading it back yields the same type, flags, trimming and extension, and a payload size equal to the size passed to the writer.", "quantifier": "every header value, payload size, LEB generator and following bytes", "why_tests_cant": "header fields x payload sizes x LEB sizes is unbounded", "anchors": ["iamf/obu/obu_header.cc: ObuHeader::ValidateAndWrite, ReadAndValidate, GetObuPayloadSize"]}
{"id": "C07", "title": "Peeking an OBU tells its exact total size", "statement": "For every successfully written OBU, PeekObuTypeAndTotalObuSize returns its type and exactly the number of bytes written, and leaves the read position unchanged.", "quantifier": "every OBU and LEB generator", "why_tests_cant": "as C06; the finding is a wrap-around at one specific magnitude", "anchors": ["iamf/obu/obu_header.cc: PeekObuTypeAndTotalObuSize"]}
{"id": "C08", "title": "IA Sequence Header OBU round trip", "statement": "A written IA Sequence Header is read back with the same profiles; the reader rejects a wrong ia_code.", "quantifier": "every profile pair, header, LEB generator", "why_tests_cant": "exhaustive over inputs and following data", "anchors": ["iamf/obu/ia_sequence_header.cc"]}
{"id": "C09", "title": "Codec Config OBU round trip for LPCM, Opus, FLAC and AAC-LC", "statement": "A successfully written codec config is read back with the same id, codec, frame size, roll distance and decoder config.", "quantifier": "every codec config the writer accepts", "why_tests_cant": "parameter space is unbounded (metadata blocks, nested sizes)", "anchors": ["iamf/obu/codec_config.cc", "iamf/obu/decoder_config/*.cc"]}
{"id": "C10", "title": "Audio Element OBU round trip", "statement": "A successfully written audio element (scalable layout, ambisonics mono/projection, objects) is read back identically, including parameter definitions.", "quantifier": "every audio element the writer accepts", "why_tests_cant": "unbounded structure", "anchors": ["iamf/obu/audio_element.cc", "iamf/obu/ambisonics_config.cc", "iamf/obu/param_definitions/*.cc"]}
{"id": "C11", "title": "Mix Presentation OBU round trip", "statement": "A successfully written mix presentation is read back identically (annotations, sub-mixes, rendering configs, layouts, loudness, tags, optional fields).", "quantifier": "every mix presentation the writer accepts", "why_tests_cant": "unbounded nested structure", "anchors": ["iamf/obu/mix_presentation.cc", "iamf/obu/rendering_config.cc", "iamf/obu/element_gain_offset_config.cc"]}
{"id": "C12", "title": "Parameter Block OBU round trip", "statement": "A successfully written parameter block is read back identically under the same parameter definition, for every parameter type and both parameter definition modes.", "quantifier": "every definition, schedule and subblock list the writer accepts", "why_tests_cant": "unbounded number of subblocks", "anchors": ["iamf/obu/parameter_block.cc", "iamf/obu/mix_gain_parameter_data.cc", "iamf/obu/demixing_info_parameter_data.cc", "iamf/obu/recon_gain_info_parameter_data.cc"]}
{"id": "C13", "title": "Audio Frame, Temporal Delimiter, Arbitrary and Metadata OBU round trips", "statement": "A successfully written audio frame / delimiter / metadata OBU is read back identically; implicit and explicit substream ids decode to the id that was written.", "quantifier": "every substream id, payload and header", "why_tests_cant": "unbounded payloads", "anchors": ["iamf/obu/audio_frame.cc", "iamf/obu/temporal_delimiter.h", "iamf/obu/metadata_obu.cc", "iamf/obu/arbitrary_obu.cc"]}
{"id": "C14", "title": "Unknown trailing bytes of an OBU are preserved", "statement": "Bytes after the payload fields known to this version, but inside obu_size, are kept when an OBU is read and reproduced when it is written again; the next OBU starts exactly after obu_size bytes.", "quantifier": "every OBU type with every trailing data", "why_tests_cant": "forward-compatibility data is arbitrary", "anchors": ["iamf/obu/obu_base.cc: ObuBase::ReadAndValidatePayload, ValidateAndWriteObu"]}
{"id": "C15", "title": "Parsing arbitrary bytes never crashes", "statement": "Reading any OBU from arbitrary bytes ends with a value or an error status: no abort, no undefined behaviour, no unbounded loop.", "quantifier": "every byte string, for every OBU parser", "why_tests_cant": "the input space is all byte strings", "anchors": ["iamf/obu/*.cc: CreateFromBuffer, ReadAndValidatePayloadDerived"]}
{"id": "C16", "title": "A truncated OBU is reported as needing more data or gives the final answer", "statement": "For every OBU type except mix presentations: if parsing succeeds on some input, it gives the same result and end position on every extension of that input, and a failure other than ResourceExhausted is not changed by appending data. For mix presentations the claim is false (whether a complete OBU is accepted may depend on the bytes behind it); what the writer produces is still read back independently of what follows.", "quantifier": "every byte string, every extension, every parser", "why_tests_cant": "quantifies over pairs of inputs", "anchors": ["iamf/obu/*.cc", "iamf/common/read_bit_buffer.cc"]}
{"id": "C17", "title": "Written OBUs stay below the 2 MiB limit", "statement": "A successfully written OBU has obu_size at most 2^21 - 1 - size of its own length field, so the whole OBU fits in 2 MiB.", "quantifier": "every OBU and LEB generator", "why_tests_cant": "size arithmetic near the boundary", "anchors": ["iamf/obu/obu_header.cc: ValidateAndWrite"]}
{"id": "C18", "title": "Subblock schedules always add up to their duration", "statement": "Every subblock schedule that can be read or created has subblock durations that are nonzero and sum exactly to its duration, with at most 192000 subblocks.", "quantifier": "every constant or variable schedule", "why_tests_cant": "unbounded numbers of subblocks and 32-bit overflow", "anchors": ["iamf/obu/param_definitions/subblock_schedule.cc"]}
{"id": "C19", "title": "Down-mixing state w stays in range", "statement": "For every history of demixing parameter blocks the w index used stays within 0..10 and changes by at most one per frame, starting at 0.", "quantifier": "every sequence of dmixp modes", "why_tests_cant": "unbounded histories", "anchors": ["iamf/obu/demixing_info_parameter_data.cc: DMixPModeToDownMixingParams", "iamf/cli/parameters_manager.cc"]}
{"id": "C20", "title": "Temporal units are well formed and canonically ordered", "statement": "A temporal unit view is created only if all frames share trimming and timestamps and no substream or parameter id repeats, and its order does not depend on the input order.", "quantifier": "every multiset of frames and blocks, every input order", "why_tests_cant": "permutations of unbounded lists", "anchors": ["iamf/cli/temporal_unit_view.cc: CreateFromPointers"]}
{"id": "C21", "title": "Descriptors are parsed consistently, and independently of how the data arrives", "statement": "Whatever the data, parsing descriptors ends with a result or an error status, never with a crash or an endless loop; when it asks for more data the read position is unchanged. What is returned contains an IA sequence header and is consistent: distinct ids, every audio element with the codec config it refers to, every mix presentation referring to elements that are there; the read position is then at the next OBU. Written descriptor OBUs followed by a temporal unit, in whatever pieces the bytes arrive, give back what was written, and the position at the end of the descriptors; the IA sequence header of a following sequence is left alone.", "quantifier": "every byte sequence, every buffer capacity, every list of descriptor OBUs, every way of cutting the stream into pieces", "why_tests_cant": "unbounded streams and split points", "anchors": ["iamf/cli/descriptor_obu_parser.cc: ProcessDescriptorObus, GetAndStoreCodecConfigObu, GetAndStoreAudioElement, GetAndStoreMixPresentationObu"]}
{"id": "C22", "title": "Timestamps never drift", "statement": "For every history of audio frames, each substream's frames have contiguous timestamps, and the global timestamp exists exactly when all substreams have advanced equally.", "quantifier": "every history of frames", "why_tests_cant": "unbounded histories", "anchors": ["iamf/cli/global_timing_module.cc"]}
{"id": "C23", "title": "Mix selection follows the documented precedence", "statement": "The selected mix presentation is the first with the requested id, otherwise the preferred one for the layout, otherwise the first supported one, and the selected layout is always a layout of the selected sub-mix.", "quantifier": "every list of mix presentations and every request", "why_tests_cant": "unbounded lists", "anchors": ["iamf/cli/obu_processor_utils.cc: FindMixPresentationAndLayout"]}
{"id": "C24", "title": "Profile filtering is sound and monotone", "statement": "A profile survives filtering only if the mix presentation meets every limit of that profile; filtering never adds a profile.", "quantifier": "every mix presentation and profile set", "why_tests_cant": "unbounded structure", "anchors": ["iamf/cli/profile_filter.cc"]}
{"id": "C25", "title": "The decoder loses, duplicates and reorders no temporal unit, however the stream is cut into pieces", "statement": "For a stand-alone decoder without channel reordering, a deterministic renderer and a stream whose descriptors are well defined: any two histories of Decode / GetOutputTemporalUnit / SignalEndOfDecoding calls that push the same bytes and drain the decoder output the same temporal units in the same order; at any time the output so far is a beginning of the final output; if one way of decoding succeeds then every way does (unless it pushes after the end, or offers a buffer smaller than a unit), and signalling the end and asking for output often enough gives everything. Streams written OBU by OBU meet the assumption. Known exceptions (proved as findings): channel reordering for Android, too small buffers, consecutive temporal delimiters.", "quantifier": "every stream of at most 4 MiB, every chunking, every interleaving of output calls, every renderer", "why_tests_cant": "unbounded call histories", "anchors": ["iamf/api/decoder/iamf_decoder.cc", "iamf/cli/obu_processor.cc: ProcessTemporalUnit", "iamf/cli/descriptor_obu_parser.cc"]}
{"id": "C26", "title": "Recon gains of a frame match the layers and come from the covering block", "statement": "Recon gains returned for an audio element with n layers have exactly n entries and are either all 0 dB or exactly the entries of a block added for the element's recon gain parameter that starts at the element's current time.", "quantifier": "all sets of audio elements, all histories of add/get/update calls, all layer counts", "why_tests_cant": "the answer depends on the whole history of calls", "anchors": ["iamf/cli/parameters_manager.cc:GetReconGainInfoParameterData", "iamf/cli/parameters_manager.cc:UpdateReconGainState"]}
{"id": "C27", "title": "Every substream carries exactly the channels its element declares, with the right output gain", "statement": "When an audio element is accepted, every substream id of the element is assigned one or two channel labels, no label is assigned twice, and the assigned channels of the non-expanded layers number exactly the channels of the highest layout. An element of ordinary layouts is accepted exactly if its substreams are distinct, no layer shrinks the one before and every layer declares the right numbers of substreams; the labels are then those of the IAMF table for the step from one layout to the next, in order, and the output gain of a channel is that of the layer carrying it if the layer's flags select it. An expanded layout (as the only layer) is carried as exactly the loudspeakers the renderer expects, pairs in coupled substreams. Ambisonics substreams carry the channels of the mapping (mono) or consecutive channel numbers (projection), at most 25; object substreams one or two objects. Label generation never crashes. An expanded first layer followed by further layers breaks the uniqueness (it is accepted).", "quantifier": "every scalable channel layout configuration, ambisonics mapping and object configuration, every number of layers and every list of substream ids", "why_tests_cant": "the number of layer combinations times substream lists is unbounded for a test; label assignment is incremental over layers", "anchors": ["iamf/cli/obu_with_data_generator.cc: FinalizeScalableChannelLayoutConfig, FinalizeAmbisonicsConfig, FinalizeObjectsConfig, OutputGainApplies", "iamf/cli/channel_label.h: ChannelLabel"]}
{"id": "C28", "title": "Down-mixing to layers and demixing are inverse", "statement": "For every accepted channel-based audio element with non-expanded layers, any samples for the channels of its highest layout and any demixing factors that are not near zero, down-mixing to the substreams succeeds and produces the IAMF down-mix formulas for every channel of every substream, and demixing those substream frames succeeds and returns the original samples of every channel of the highest layout, whatever order the substreams and frames are visited in. Every dmixp_mode gives such factors.", "quantifier": "all layer sequences accepted, all frame lengths and sample values (exact arithmetic), all factors, all iteration orders of the substream maps and frames", "why_tests_cant": "there are 175 reachable substream layouts, unboundedly many frame lengths, sample values and hash-map orders; tests check a few layouts on literals", "anchors": ["iamf/cli/downmixer.cc", "iamf/cli/downmixer_factory.cc: CreateScalableChannelDownmixers", "iamf/cli/downmixer_manager.cc: DownMixSamplesToSubstreams", "iamf/cli/demixer.cc", "iamf/cli/demixing_manager.cc: FillRequiredDemixingMetadata, StoreSamplesForAudioElementId, DemixOriginalAudioSamples", "iamf/cli/labeled_frame.cc: FindSamplesOrDemixedSamples", "iamf/cli/channel_label.cc: GetDemixedLabel"]}
{"id": "C29", "title": "A codec config is accepted exactly when it is legal", "statement": "Every codec config the reader accepts has a supported codec id and meets the legality rules of that codec (sample sizes and rates, block sizes, frame counts, roll distance, fixed AAC/FLAC fields), and reports the sample rates and bit depths the decoder config encodes; and a config written by the library that meets the rules is accepted. Setting a codec delay changes Opus pre-skip and nothing else.", "quantifier": "every byte string offered to the reader, every codec config of the four codecs, every field value", "why_tests_cant": "tests pick a few sample rates, sizes and field values per codec; the rules quantify over all field combinations", "anchors": ["iamf/obu/codec_config.cc: ReadAndValidatePayloadDerived, Initialize, SetCodecDelay", "iamf/obu/decoder_config/lpcm_decoder_config.cc", "iamf/obu/decoder_config/opus_decoder_config.cc", "iamf/obu/decoder_config/flac_decoder_config.cc", "iamf/obu/decoder_config/aac_decoder_config.cc"]}
{"id": "C30", "title": "Written OBUs have exactly the layout of the specification", "statement": "For each OBU type, writing succeeds with given bytes if and only if the object meets the listed legality conditions, every field fits its width, and the bytes are the header fields followed by the fields of the type's syntax table in order with the stated widths (OBU type numbers, field order, widths, sizes and counts are fixed by a table independent of the writer).", "quantifier": "every header, every object of every OBU type, every LEB128 generator and footer", "why_tests_cant": "round-trip tests cannot see a reader and writer that agree on a wrong layout; a table test covers only literal objects", "anchors": ["iamf/obu/obu_base.cc: ValidateAndWriteObu", "iamf/obu/obu_header.cc: ValidateAndWrite", "iamf/obu/ia_sequence_header.cc", "iamf/obu/codec_config.cc", "iamf/obu/audio_element.cc", "iamf/obu/mix_presentation.cc", "iamf/obu/parameter_block.cc", "iamf/obu/audio_frame.cc", "iamf/obu/metadata_obu.cc", "iamf/obu/temporal_delimiter.h"]}
{"id": "C31", "title": "Signed LEB128 generation is exact, minimal or of the requested size", "statement": "For every generator the factory can make and every signed 32-bit value the generated bytes are one complete LEB128 whose two's complement value is the input; minimum mode never fails and no shorter string has that value; fixed-size mode has exactly the requested size and fails with InvalidArgument exactly when no LEB128 string of that size has the value.", "quantifier": "every generation mode, every size, every int32", "why_tests_cant": "2^32 values times 9 generators, and minimality quantifies over all byte strings", "anchors": ["iamf/common/leb_generator.cc: Sleb128ToUint8Vector", "iamf/common/leb_generator.cc: Leb128ToUint8Vector"]}
{"id": "C32", "title": "Output samples are exact, interleaved little-endian integers", "statement": "A rendered frame with C channels and T samples is written as exactly C*T*(bits/8) bytes, sample (t,c) at position (t*C+c)*(bits/8), whose two's complement little-endian value is the rendered value scaled to 2^31, truncated towards zero, clipped to the 32-bit range and shifted to the requested width; unsupported widths, frames with unequal channel lengths and too small buffers are refused with no bytes written. Samples that were integers of the width come back unchanged.", "quantifier": "every frame shape, every sample value, every bit depth", "why_tests_cant": "all sample values and frame shapes", "anchors": ["iamf/cli/cli_util.cc: WritePcmSample", "iamf/api/decoder/iamf_decoder.cc: WriteFrameToSpan", "iamf/common/utils/numeric_utils.h: NormalizedFloatingPointToInt32"]}
{"id": "C33", "title": "Channels come out in the order that Android wants", "statement": "When a decoder is asked for Android's channel order, the channels of every frame rendered for a loudspeaker layout come out in the order of Android's channel masks: the channel of each loudspeaker is at the place that the loudspeaker has in the mask. Nothing else changes: no channel is lost, duplicated or altered, and without the request the order stays as it is. The reordering fails only for frames with too few channels.", "quantifier": "all sound systems, all frames of any number of channels with any content, both ordering schemes", "why_tests_cant": "the reordering is written as hand-made index assignments per layout; tests compare a few layouts, but every loudspeaker of every layout has to land in the right place for every frame, with no channel duplicated.", "anchors": ["iamf/api/conversion/channel_reorderer.cc: ChannelReorderer::Create, ChannelReorderer::Reorder, SwapBackAndSides, ReorderSoundSystemFForAndroid, ReorderSoundSystemGForAndroid, ReorderSoundSystemHForAndroid"]}
{"id": "C34", "title": "A sequencer writes exactly the pushed sequence, or leaves no file", "statement": "For every history of calls of the sequencer that writes to a file, and whatever writes to that file fail: if all calls succeed, the file is the descriptors (sequence header, metadata, codec configs and audio elements by ascending id, mix presentations, arbitrary OBUs at their hooks) followed by the temporal units in the order pushed; a successful update replaces the descriptors in place and leaves the units alone; after the first failed call, or Abort, there is no file; after Close nothing changes it and every later call but Abort fails. Pushing and closing a sequence succeeds exactly when every OBU is writable, each mix is allowed in a profile of the sequence header, the codec configs agree on rate and frame size, and no unit trims its start after one with samples. Results do not depend on the iteration order of hash maps nor on the kind of sequencer; the streaming sequencer hands out the bytes of the file; a delayed sequencer passes descriptors first, with the first timestamp, then all units in order.", "quantifier": "every history of calls, every descriptor set and temporal unit, every pattern of write failures, every LEB128 generator, every iteration order of the maps", "why_tests_cant": "tests run a handful of call orders and never inject failures at each write; the atomicity and ordering claims range over all histories and failure points", "anchors": ["iamf/cli/obu_sequencer_base.cc: ObuSequencerBase::{PushDescriptorObus,PushTemporalUnit,UpdateDescriptorObusAndClose,Close,Abort}, WriteDescriptorObus, WriteTemporalUnit, HandleInitialTemporalUnits", "iamf/cli/obu_sequencer_iamf.cc: ObuSequencerIamf", "iamf/cli/obu_sequencer_streaming_iamf.cc: ObuSequencerStreamingIamf"]}
{"id": "C35", "title": "Temporal units that were written come back out of the processor", "statement": "Take descriptors with which the OBU processor can be initialized, and temporal units of a sequence with them: the k-th has one audio frame of n samples for every substream, starting at k*n, and at most one parameter block for any parameter, plus any OBUs of reserved types, metadata or redundant descriptor copies. Write them one after another, with or without temporal delimiters, and call ProcessTemporalUnit until it says that there is no more: one temporal unit comes out for each that went in, in the same order, with exactly the audio frames that went in (header, substream, coded data, start and end timestamps, audio element) in their order, demixing parameters as for an element without parameter blocks, and exactly those parameter blocks whose parameter is in time, i.e. all earlier blocks of it together last until k*n. If every unit has a block for each parameter and blocks last as long as frames then all blocks come back. A block of a parameter that starts late is dropped without an error.", "quantifier": "all descriptors, numbers of units, substreams and parameters, frame sizes, coded data, block contents, leb128 generators, delimiter choices, interleaved OBUs and read buffer capacities", "why_tests_cant": "unit boundaries are inferred from timestamps, which depend on all OBUs before; a test covers a few units of a few substreams.", "anchors": ["iamf/cli/obu_processor.cc: ObuProcessor::ProcessTemporalUnit, ProcessTemporalUnitObu, InitializeInternal, GetAndStoreAudioFrameWithData, GetAndStoreParameterBlockWithData", "iamf/cli/global_timing_module.cc", "iamf/cli/obu_with_data_generator.cc: GenerateAudioFrameWithData, GenerateParameterBlockWithData", "iamf/cli/cli_util.cc: CollectAndValidateParamDefinitions", "iamf/cli/obu_sequencer_base.cc: WriteTemporalUnit"]}
{"id": "C36", "title": "What a sequencer writes is what a decoder decodes", "statement": "Write a sequence to a file with the sequencer: descriptors, then temporal units, every call succeeding. Push the file into a decoder in any pieces, asking for output at any times. If all calls return OK and nothing more can be got out of the decoder, then the PCM it gave out is that of the written temporal units, in their order and each exactly once, each rendered from the audio frames that were written (and the parameter blocks that are in time) in the state left by the unit before. The decoder works with the descriptors that were written. If the file has at most 4 MiB then no way of pushing it makes a call fail (with large enough output buffers and nothing pushed after the end), and signalling the end and asking for output often enough gives out all units.", "quantifier": "all sequences of descriptors as the library builds them, all numbers of temporal units, substreams and parameters, frame sizes, leb128 generators, delimiter choices, reserved OBUs in between; all rendering back ends; all histories of decoder calls", "why_tests_cant": "the bytes on disk, the descriptors found, unit boundaries and the output all depend on everything written before and on how it is cut into pieces; tests cover a few files and chunk sizes", "anchors": ["iamf/cli/obu_sequencer_base.cc: PushDescriptorObus, PushTemporalUnit", "iamf/cli/obu_sequencer_iamf.cc", "iamf/cli/descriptor_obu_parser.cc", "iamf/cli/obu_processor.cc: CreateForRendering, ProcessTemporalUnit", "iamf/api/decoder/iamf_decoder.cc: Decode, GetOutputTemporalUnit, SignalEndOfDecoding"]}
{"id": "C37", "title": "LPCM coding is lossless", "statement": "For every valid LPCM codec config (16, 24 or 32 bits, either byte order, any rate) and one or two channels: a frame encoded from a full frame of samples decodes to the same channels and samples, exactly but for the bits below the sample size; a full-length frame from anywhere that is decoded and encoded again is the same bytes; a frame decodes exactly if it is a whole number of samples for every channel, at most the frame size, and then gives that many for each channel. Whatever sequence of encode, pop and finalize calls is made on an encoder, the frames it gives back are those it took, in order, each with its own metadata. Findings: a second channel that is too short is read out of bounds, and a finalized encoder with pending frames still accepts more.", "quantifier": "all sample values, frame sizes, sample sizes, byte orders, channel counts and histories of encoder calls", "why_tests_cant": "losslessness is about every sample value and byte pattern; tests encode a few values", "anchors": ["iamf/cli/codec/lpcm_encoder.cc: LpcmEncoder", "iamf/cli/codec/lpcm_decoder.cc: LpcmDecoder", "iamf/cli/codec/encoder_base.cc: EncoderBase", "iamf/cli/sample_processing_utils.cc: WritePcmSample", "iamf/common/utils/numeric_utils.cc: Int32ToNormalizedFloatingPoint"]}
{"id": "C38", "title": "Mix gains follow their animation curves", "statement": "For a mix gain parameter block (any that was read from bytes for a consistent definition, whatever its schedule), the gain of every tick inside it is the linear value of the point on the animation of the subblock that the tick is in: constant for a step, on the line from start to end for a linear animation, and on the quadratic Bezier curve through start, control point and end at that time for a Bezier one; ticks after the block keep what they had, and without a block every tick has the default gain of the definition. The curve determines one value per time, begins with its first value and never leaves the range of its values. A definition for another rate than that of the audio is refused. (Exact arithmetic: rounding of float is not modelled. Finding: times are narrowed to 32 bit, so subblocks of 2^31 ticks or more are outside the model.)", "quantifier": "all parameter blocks, definitions, schedules, animations, ticks and ordered fields (in particular the real numbers)", "why_tests_cant": "the inverse of the Bezier time function is computed by a case distinction and a square root: tests compare a handful of points on a handful of curves", "anchors": ["iamf/common/utils/obu_util.h: InterpolateMixGainValue", "iamf/obu/parameter_block.cc: ParameterBlockObu::GetLinearMixGains, InterpolateMixGainParameterData", "iamf/cli/renderer/default_layout_renderer.cc: GetParameterBlockLinearMixGainsPerTick"]}
{"id": "C39", "title": "Audio elements are rendered to the right loudspeakers", "statement": "A renderer for an audio element and a loudspeaker layout either passes channels through - exactly when a layer of the element has the loudspeakers of the layout (for an expanded layout: some of them) - or multiplies with the matrix of gains between the layouts of the highest layer and of the loudspeakers (with the matrix derived from the frame's down-mixing parameters for 7.1.4 to 3.1.2 and 7.1.2). Passed-through samples are unchanged, each channel goes to the loudspeaker at its place, absent channels are silent and for one layer none is lost. Rendered samples are the sums of sample times gain over the trimmed samples; ambisonics gains are combined with the demixing matrix (projection) or the channel mapping (mono). Rendering fails exactly if channels are missing, of different length or longer than the frame, and never crashes. Without a request for binaural rendering headphones get what stereo loudspeakers get.", "quantifier": "all audio elements, layouts, frames, trimmings, gain tables of the right shape, down-mixing parameters, rendering configurations", "why_tests_cant": "layers x layouts x sound systems x ambisonics mappings x frames cannot be enumerated; a channel that is swapped or dropped in one combination is inaudible in others", "anchors": ["iamf/cli/renderer_factory.cc: RendererFactory", "iamf/cli/renderer/audio_element_renderer_base.cc: AudioElementRendererBase::RenderLabeledFrame", "iamf/cli/renderer/audio_element_renderer_passthrough.cc", "iamf/cli/renderer/audio_element_renderer_channel_to_channel.cc", "iamf/cli/renderer/audio_element_renderer_ambisonics_to_channel.cc", "iamf/cli/renderer/renderer_utils.cc: ArrangeSamplesToRender, GetChannelLabelsForAmbisonics", "iamf/cli/renderer/loudspeakers_renderer.cc: MaybeComputeDynamicGains, RenderChannelLayoutToLoudspeakers"]}
{"id": "C40", "title": "What is played is the mix that the descriptors describe", "statement": "When a temporal unit with a frame for every audio element of the mix is rendered, the samples of every layout are, for every channel and tick, the gain of the output times the sum over the audio elements of its gain times its rendered sample, where gains are those of the parameter blocks of the unit (or the defaults) at that tick. This holds after any history of earlier units, successful or not. A layout has no samples exactly if an audio element has no renderer for it. Rendering a unit fails only if a parameter block has other times than the unit or there are no such samples, with a status; preparing a mix presentation never crashes. (Findings: gains are counted from the first sample that is kept after trimming; an element without a frame is played again with its gain applied twice; blocks that are not used can make a unit fail.)", "quantifier": "all mix presentations, audio elements, layouts, frames, parameter blocks, gain tables of the right shape and histories of temporal units", "why_tests_cant": "depends on the history of units and on all combinations of elements, layouts, gains and animations", "anchors": ["iamf/cli/renderer/default_layout_renderer.cc: DefaultLayoutRenderer::Render, MixAudioElements, GetAndApplyMixGain", "iamf/cli/rendering_mix_presentation_finalizer.cc: RenderingMixPresentationFinalizer::Create, PushTemporalUnit, GetPostProcessedSamplesAsSpan", "iamf/cli/renderer_factory.cc"]}
{"id": "C41", "title": "LPCM is played as it was encoded, from the encoder to the bytes that the decoder gives out", "statement": "Rendering a temporal unit decodes, demixes, renders and mixes its frames, after any history of units. If a sequence plays one audio element of one layer, coded as LPCM, at 0 dB and without parameter blocks, to a sound system with the loudspeakers of that layer, and it is written to a file and the file is given to a decoder in any pieces with calls for output in between in any way, then no call fails and the decoder gives out, unit by unit, exactly the samples that the LPCM encoder was given: each channel at its place, interleaved, without those that are trimmed, and up to the bits that the sample size of the codec or of the output type leaves out; if none are left out, bit for bit.", "quantifier": "all sequences, frame sizes, numbers of units, sample values, channel layouts with loudspeakers of their own, trims, sample sizes, byte orders, output types, LEB128 generators, and all ways to cut the file and call the decoder", "why_tests_cant": "the statement spans the encoder, the bitstream and the decoder, and ranges over all samples, layouts, cuts and call sequences", "anchors": ["iamf/cli/audio_frame_decoder.cc: AudioFrameDecoder::Decode", "iamf/cli/codec/lpcm_decoder.cc", "iamf/cli/obu_processor.cc: RenderTemporalUnitAndMeasureLoudness", "iamf/cli/demixing_manager.cc: DemixingManager", "iamf/api/decoder/iamf_decoder.cc: IamfDecoder", "iamf/cli/obu_sequencer_iamf.cc"]}
{"id": "C42", "title": "Cutting parameter blocks into frames does not change the parameters over time", "statement": "Before encoding, every parameter block is replaced by consecutive blocks of one frame each. The parts keep the id and header, are well-formed blocks, cover the original exactly (none of it twice, nothing missing), and at every tick the parameter is the same as in the original: animated gains differ by less than 1/256 dB, steps, curves, demixing modes and recon gains not at all. A part is made exactly if the block is well formed and covers it, Bezier curves are not cut, and at most one un-animated subblock falls into it; otherwise InvalidArgument is reported and the metadata is left as it is. The loop always ends.", "quantifier": "all parameter block metadata (ids, durations, constant or variable subblocks, gains of all kinds, demixing, recon gain), all part boundaries and frame sizes including 0", "why_tests_cant": "ranges over all schedules, gains and cut positions; interpolation and narrowing must be right at every tick", "anchors": ["iamf/cli/parameter_block_partitioner.cc: PartitionFrameAligned, PartitionParameterBlock, GetPartitionedSubblocks, PartitionMixGain, InterpolateMixGainParameterData, FindConstantSubblockDuration, FindPartitionDuration", "iamf/cli/proto_conversion/proto_utils.cc: CreateSubblockScheduleFromMetadata", "iamf/cli/encoder_main_lib.cc: PartitionParameterMetadata"]}
{"id": "C43", "title": "Frames of samples that wait for an encoder are a queue", "statement": "Samples pushed or padded to the channels of a substream come back unchanged and in order, channel by channel, cut into frames of the given size: the front frame always holds the oldest samples, popping removes exactly that frame, the object is empty exactly if no samples wait, and no operation aborts or leaves memory, however frames are recycled in between, as long as frames are popped only when all channels hold as many samples and padding starts from equal channels.", "quantifier": "all channel counts and frame sizes above zero, all sample values, all sequences of push, pad, front, pop and empty of any length", "why_tests_cant": "the object recycles storage through iterators into two linked lists, so its behaviour depends on the whole history of calls; the class has no unit test (TODO(b/427616513))", "anchors": ["iamf/cli/substream_frames.h: SubstreamFrames"]}
{"id": "C44", "title": "Audio frames hold the samples that were given, with the trimming that was asked for", "statement": "However AddSamples, parameter blocks, Finalize and OutputFrames are interleaved on an AudioFrameGenerator made from valid descriptors, with one set of metadata per audio element and samples only for listed labels: no call crashes; if none fails, the frames of every substream carry, in order and without gap or overlap, the down-mixed samples that were given before Finalize, after as many zeros as the largest codec delay, in frames of num_samples_per_frame with consecutive timestamps; what is trimmed at the start adds up to what the user asked for (plus the codec delay if it is not included); when the stream has ended, removing the trimmed samples gives back the given samples without those that the user asked to trim. The down-mixing of each block of samples uses the mode and the w index that the IAMF specification gives for the parameter block that was added for it, or the default ones. A call puts out nothing or exactly one frame per live substream. With LPCM, the bytes of each frame decode to its samples up to the configured bit depth.", "quantifier": "all audio elements, codec delays, trimming requests, sample values, block sizes up to the frame size, demixing parameter blocks, and all finite sequences of calls (hence all interleavings of threads, since every call holds the mutex), all encoders that return, in order, one frame per input frame at any later time", "why_tests_cant": "frames are delayed by two queues per substream and by the encoder, trimming counters are spread over several maps, and the outcome depends on the whole history of calls and on sample counts", "anchors": ["iamf/cli/proto_conversion/proto_to_obu/audio_frame_generator.cc: AudioFrameGenerator::Create, AddSamples, Finalize, OutputFrames, MaybeEncodeFramesForAudioElement, ValidateAndApplyUserTrimming", "iamf/cli/downmixer_manager.cc: DownMixSamplesToSubstreams", "iamf/cli/codec/encoder_base.h: EncoderBase", "iamf/cli/codec/lpcm_encoder.cc: LpcmEncoder"]}
{"id": "C45", "title": "Parameter blocks are what their metadata say", "statement": "Whatever parameter block metadata are given to the encoder, in any order and interleaved in any way with requests for blocks, the generated parameter blocks of each kind (mix gain, demixing, recon gain) are, one for one and in the order in which the metadata were given, what the metadata say: the same animation with the same values, the demixing mode, the recon gains at exactly the given positions, the header, the start time and the schedule of the metadata or of the parameter definition; the blocks of each parameter follow one another from time 0 without a gap. Metadata are accepted exactly if such a block exists. Unless overridden, recon gains are accepted only if they equal those measured for exactly the channels that the layer has by demixing, and this does not depend on the iteration order of hash maps, except for layers in which two demixed channels share a position.", "quantifier": "all parameter definitions, all metadata, all interleavings of AddMetadata and the Generate functions, all measured recon gains, all hash orders", "why_tests_cant": "Values range over 32-bit integers, schedules over any number of subblocks, and histories over any interleaving; tests try a few blocks and one hash order.", "anchors": ["iamf/cli/proto_conversion/proto_to_obu/parameter_block_generator.cc: AddMetadata, GenerateDemixing, GenerateMixGain, GenerateReconGain, ComputeReconGains, ConvertReconGainsAndFlags, FindDemixedChannels", "iamf/cli/proto_conversion/proto_utils.cc: CopyDemixingInfoParameterData, CreateSubblockScheduleFromMetadata"]}
{"id": "C46", "title": "Life cycle of an encoder", "statement": "For an IamfEncoder after any calls that did not fail fatally: a second FinalizeEncode changes nothing; after FinalizeEncode the samples given to Encode make no difference; as long as FinalizeEncode was not called, an encoder that takes samples reports GeneratingTemporalUnits; once GeneratingTemporalUnits is false it stays false; GetDescriptorObus reports final descriptors exactly when FinalizeEncode was called and no temporal unit is to come; redundant descriptors are refused; and once the descriptors are final, no call changes the descriptors or any output file, and OutputTemporalUnit leaves the caller's buffer as it is.", "quantifier": "all encoders (any descriptor OBUs, codecs, finalizers, sequencers), all finite sequences of calls of Encode, FinalizeEncode and OutputTemporalUnit in any order with any data", "why_tests_cant": "The order and number of calls is unbounded; tests only follow the documented order.", "anchors": ["iamf/cli/iamf_encoder.cc: IamfEncoder::Encode, FinalizeEncode, OutputTemporalUnit, GeneratingTemporalUnits, GetDescriptorObus", "iamf/include/iamf_tools/iamf_encoder_interface.h"]}
{"id": "C47", "title": "Every run of an encoder writes what it was given", "statement": "Whatever calls a user makes of a new encoder, each call does what it has to: Encode accepts data exactly if all parameter blocks are of known parameters; each OutputTemporalUnit uses, for each channel, the samples given last since the previous OutputTemporalUnit and the demixing blocks that wait; the frames are those of the audio frame generator for these samples; a temporal unit with frames holds of each kind exactly the waiting parameter blocks that start no later, each of which is what its metadata say (recon gains measured from the first unit decoded after their metadata), and the arbitrary OBUs with its tick; nothing is written twice or skipped; every frame is decoded and passed to the loudness finalizer once, in order; every sequencer gets the descriptors, the temporal units in order, and at the end, once, the descriptors with measured mix presentations. A file written by the encoder holds at any time the descriptors as GetDescriptorObus returns them, followed by all temporal units exactly as OutputTemporalUnit returned them.", "quantifier": "all encoders, all finite sequences of calls with any samples and parameter block metadata (recon gain layers in which no two demixed channels have the same place), any hash map order", "why_tests_cant": "Histories are unbounded: the property relates all samples and metadata ever given to all bytes ever written.", "anchors": ["iamf/cli/iamf_encoder.cc: IamfEncoder::Create, Encode, OutputTemporalUnit, FinalizeEncode", "iamf/cli/proto_to_obu/parameter_block_generator.cc", "iamf/cli/proto_to_obu/audio_frame_generator.cc", "iamf/cli/obu_sequencer_base.cc"]}
{"id": "C48", "title": "What goes into the encoder comes out of the decoder", "statement": "A user creates an encoder for one audio element coded as LPCM and uses it as documented: Encode with samples for all channels and OutputTemporalUnit in turns, at the end FinalizeEncode and OutputTemporalUnit until GeneratingTemporalUnits is false. If none of these calls fails, a file was written; and if the bytes of that file are given to a decoder, in pieces of any sizes, with calls for output in between or not, then no call of the decoder fails, and all output together is exactly the samples that were given to the encoder, in order, for every channel of the output layout, without those that the user asked to trim at the start and at the end, and without the silence that the encoder added to fill the last frame; up to the bits that the sample sizes of the file and of the output do not have. Blocks of samples may be longer than a frame.", "quantifier": "all LPCM formats, frame sizes, channel layouts that the decoder passes through, all samples, numbers and sizes of blocks, trims, hash map orders, leb128 sizes, all ways of cutting the file into pieces and of interleaving calls", "why_tests_cant": "It relates two programs over unbounded sequences of samples and calls; tests compare a few files.", "anchors": ["iamf/cli/iamf_encoder.cc: IamfEncoder", "iamf/cli/proto_to_obu/audio_frame_generator.cc", "iamf/cli/codec/lpcm_encoder.cc, lpcm_decoder.cc", "iamf/cli/obu_sequencer_base.cc, obu_sequencer_iamf.cc", "iamf/api/decoder/iamf_decoder.cc", "iamf/cli/obu_processor.cc", "iamf/cli/audio_frame_decoder.cc", "iamf/cli/renderer"]}
{"id": "C49", "title": "A decoder made from descriptors is a queue of temporal units", "statement": "A user of a container format creates a decoder with CreateFromDescriptors from the bytes of the descriptors of a written sequence, then passes whole temporal units to Decode, one or several at a time, and calls GetOutputTemporalUnit and SignalEndOfDecoding whenever it likes. Then creation and all calls return OK; each call for output gives the samples of the temporal unit that was given earliest and not yet taken, or nothing if there is none; no unit is lost, repeated or changed by how units are grouped into calls; IsTemporalUnitAvailable says whether a unit is waiting. Also with channels in the order for Android.", "quantifier": "all sequences that C36 covers, all settings for which the descriptors can be rendered, all finite interleavings of calls with any number of units per call (at most 4 MiB waiting, buffers as large as the samples, no data after the end, units that have samples)", "why_tests_cant": "The interleavings and numbers of units are unbounded; tests feed one or two units.", "anchors": ["iamf/api/decoder/iamf_decoder.cc: IamfDecoder::CreateFromDescriptors, Decode, GetOutputTemporalUnit, SignalEndOfDecoding, DecodeOneTemporalUnit", "iamf/cli/obu_processor.cc: ObuProcessor::ProcessTemporalUnit", "iamf/include/iamf_tools/iamf_decoder_factory.h"]}
{"id": "C50", "title": "Reset gives a new decoder", "statement": "A decoder was created from descriptors, and then any calls were made with any data, whatever they returned. Reset now does what creating a decoder from the same descriptors would do for the mix and layout that were last asked for: it fails with the same error, or it succeeds, and then nothing of the history is left: every later call gives what it gives for the new decoder. If no other mix was asked for, Reset succeeds. ResetWithNewMix does the same for the mix and layout it is given, and reports the mix and layout of the new decoder. Layouts are reported as they are asked for. A decoder that was not created from descriptors refuses, and the attempt changes nothing.", "quantifier": "all descriptor bytes (of one sequence; of several, for a beginning of them), all settings and backends, all finite histories of calls including resets, whatever data and results", "why_tests_cant": "Histories are unbounded and state is spread over buffer, processor, pending samples, reorderer and flags; tests reset after one particular history.", "anchors": ["iamf/api/decoder/iamf_decoder.cc: IamfDecoder::Reset, ResetWithNewMix, GetOutputMix", "iamf/api/conversion/mix_presentation_conversion.cc: ApiToInternalType, InternalToApiType"]}
{"id": "C51", "title": "The documented size of an output buffer is always enough", "statement": "After any history of calls (Decode, GetOutputTemporalUnit, SignalEndOfDecoding, Reset, ResetWithNewMix), on any bytes: if GetFrameSize and GetNumberOfOutputChannels answer and a temporal unit is available, then the unit has that many channels and at most a frame of samples in each, so a buffer of frame size x channels x bytes per sample holds it; GetOutputTemporalUnit writes exactly its bytes into it, and a larger buffer changes neither the answer nor what the decoder does next.", "quantifier": "all streams of bytes (valid or not), all histories of calls, all settings, all larger buffers", "why_tests_cant": "The bound must hold for every stream, layout, renderer, trimming and gain and after every history of resets; a too small buffer loses the unit.", "anchors": ["iamf/include/iamf_tools/iamf_decoder_interface.h: GetOutputTemporalUnit, GetFrameSize, GetNumberOfOutputChannels", "iamf/api/decoder/iamf_decoder.cc: IamfDecoder::GetOutputTemporalUnit", "iamf/cli/rendering_mix_presentation_finalizer.cc", "iamf/cli/renderer/audio_element_renderer_base.cc"]}
{"id": "C52", "title": "No input makes the decoder crash or hang", "statement": "Create a decoder, for a stream or from descriptors, with any settings of the API (known profiles, any mix id, any layout of the enumeration, any sample type, channels not reordered), and call Decode, GetOutputTemporalUnit, SignalEndOfDecoding, Reset and ResetWithNewMix in any order with any bytes and sizes. Then creation and every later call of every method, including GetOutputMix, GetNumberOfOutputChannels, GetSampleRate and GetFrameSize, end and either succeed or report a status; none aborts the process, reads out of bounds or a null pointer, or loops forever. With the Android channel order this is false (F49).", "quantifier": "all byte streams (valid or malicious), all histories of calls, all settings, all gain tables, binaural renderers and third-party codecs that themselves behave", "why_tests_cant": "Fuzzing visits finitely many inputs; crashes hide in rare combinations of descriptors, parameter blocks, trimming and call order, as F49 shows.", "anchors": ["iamf/api/decoder/iamf_decoder.cc: IamfDecoder", "iamf/cli/obu_processor.cc", "iamf/cli/descriptor_obu_parser.cc", "iamf/cli/rendering_mix_presentation_finalizer.cc", "iamf/cli/audio_frame_decoder.cc", "iamf/cli/demixer.cc", "iamf/cli/renderer/"]}
{"id": "C53", "title": "Which descriptors can be played, and what the decoder says it plays", "statement": "A decoder can be created from the bytes of descriptors exactly when they are at most 4 MiB, can be parsed, and what the user asks for can be played: parameter definitions with the same id agree and have a rate, recon gain parameters have ids of their own and belong to channel-based elements, no element has two parameters of one kind, no substream belongs to two elements, codecs have a sample rate, some mix presentation is allowed by one of the requested profiles, and the codecs accept all substreams (of one or two channels) of the chosen sub-mix. A decoder fed with a stream becomes ready under exactly the same conditions on the descriptors before the first temporal unit. A decoder that is ready reports the chosen mix presentation and the layout that was asked for (or the first one of the chosen sub-mix), the number of channels of that layout, and the sample rate and frame size exactly if there is one codec configuration; and it reports the same after any later calls.", "quantifier": "all byte strings of any length, all requested profiles 0-5, mix presentation ids and layouts of the API, all codecs, all sequences of later Decode, GetOutputTemporalUnit and SignalEndOfDecoding calls with any bytes", "why_tests_cant": "An exact condition has to be right for every descriptor set: a test shows one accepted or one refused file, never that there is no other reason for refusal and no missing check.", "anchors": ["iamf/api/decoder/iamf_decoder.cc:IamfDecoder::CreateFromDescriptors", "iamf/api/decoder/iamf_decoder.cc:IamfDecoder::Decode", "iamf/cli/obu_processor.cc:ObuProcessor::CreateForRendering", "iamf/cli/obu_processor.cc:ObuProcessor::InitInternal", "iamf/cli/obu_processor.cc:ObuProcessor::InitializeForRendering", "iamf/cli/audio_frame_decoder.cc", "iamf/cli/profile_filter.cc"]}
{"id": "C54", "title": "Final mix presentations carry the loudness that was measured on the rendered sound", "statement": "For a finalizer of mix presentations with distinct ids: every layout that has a renderer is rendered for every temporal unit, and its loudness calculator and its post-processor are given exactly what was rendered, in order, nothing else. A temporal unit is accepted exactly if its parameter blocks cover its time and all those layouts can be rendered, measured and post-processed. The samples reported for a layout are the output of its post-processor or else the rendering of the last unit. The final mix presentations are the original ones except for loudness; the loudness of a layout is what its calculator reports after all units if there is a calculator and some layout of the mix presentation is rendered, otherwise what the user gave; they are returned exactly if all calculators report and, when validation is asked for, integrated loudness, digital peak and (if present) true peak agree with the user's. Temporal units are refused after the end was announced, the end can be announced once, the result can be had only afterwards and once, and refused calls have no effect. Without renderers the mix presentations are returned unchanged.", "quantifier": "all mix presentations, audio elements, renderer environments, loudness calculators and post-processors, all orders of hash map iteration, all sequences of temporal units and of calls", "why_tests_cant": "A test measures one mix with one calculator; that no unit is skipped or measured twice, that no layout gets the loudness of another, and that no order of calls reopens a finished object concerns all mixes, histories and calculators.", "anchors": ["iamf/cli/rendering_mix_presentation_finalizer.cc: RenderingMixPresentationFinalizer::Create, PushTemporalUnit, FinalizePushingTemporalUnits, GetFinalizedMixPresentationObus, GetPostProcessedSamplesAsSpan", "iamf/cli/renderer/default_layout_renderer.cc"]}
{"id": "C55", "title": "The loudness that the encoder writes is that of the sound it was given", "statement": "When an encoder that renders and measures its mixes is done, its final descriptor OBUs are those it was created with, except for the loudness of mix presentations, which is what the loudness calculator of each layout answers after being given, unit by unit and nothing else, the rendering of the samples from before encoding, with the parameter blocks that were written. For an encoder of one audio element coded as LPCM, driven by the documented loop, and a layout whose loudspeakers are the channels of the element, with no gains: the calculator was given exactly the samples that the caller passed in, channel by channel in loudspeaker order, without those trimmed at the start and at the end, each once; left out channels are silent.", "quantifier": "all descriptors, loudness calculators, post-processors, codecs, sequences of encoder calls; for the second part all block sizes, numbers of blocks, samples, trims, channel layouts and sound systems that match", "why_tests_cant": "Tests compare loudness values for a few files; whether any sample is dropped, doubled, or measured in the wrong place depends on all splittings of the input into blocks, frames and trims.", "anchors": ["iamf/cli/iamf_encoder.cc: IamfEncoder::OutputTemporalUnit, FinalizeEncode", "iamf/cli/demixing_manager.cc: DemixOriginalAudioSamples", "iamf/cli/rendering_mix_presentation_finalizer.cc: PushTemporalUnit, GetFinalizedMixPresentationObus"]}
{"id": "C56", "title": "The encoder program encodes exactly the WAV files it is given", "statement": "WAV files are accepted exactly if there is at most one for each audio element, with the sample rate of its codec config, no more bits than the codec codes and all chosen channels. Reading them never fails; the k-th reading gives, for each label, the k-th frame of the channel chosen for it, each sample once and in order, and floating point samples are scaled and clipped as documented. Whenever the program succeeds, the encoder was given, in its k-th iteration, exactly the k-th frame of every audio element and the parameter block metadata of that time (with what it still holds), and encoding was ended in the iteration that read the last sample. For one audio element coded as LPCM, a WAV file of any length, encoded by the program and decoded in any way from the file that the program left on disk, comes out as it is, in the order of the output layout and without what was to be trimmed.", "quantifier": "all WAV files (length, channels, contents, integer or floating point), channel choices, codec configs, numbers of audio elements, parameter block metadata, orders of iteration of hash maps, and ways of feeding and reading the decoder", "why_tests_cant": "Tests encode a few WAV files; lost, doubled or shifted samples depend on the relation of file length, frame size and trims, and on the order of hash maps.", "anchors": ["iamf/cli/wav_reader.cc: WavReader::CreateFromFile, ReadFrame, NormalizedFloatBitsToInt32", "iamf/cli/wav_sample_provider.cc: WavSampleProvider::Create, ReadFrames", "iamf/cli/encoder_main_lib.cc: GenerateTemporalUnitObus, CollectLabeledSamplesForAudioElements", "iamf/cli/iamf_encoder.cc", "iamf/api/decoder/iamf_decoder.cc"]}
{"id": "C57", "title": "WAV files hold exactly the samples that were written, and the decoder program writes exactly the sound of a stream", "statement": "After any history of calls of a WAV writer, the file holds a header and, behind it, the samples of exactly those calls that were accepted, in order, interleaved and little-endian in the bit depth of the file; once it is flushed or destroyed the header says how many there are; after Abort there is no file. Which calls are accepted depends only on the number of channels, the size and whether Flush or Abort was called. Whatever is in its input file, if the decoder program ends without an error then its output file holds just what a decoder gave out for the whole input, in order, under a header with the sample rate and number of channels that the decoder reports, or there is no output file because no descriptors were found. For every stream that was written (descriptors and temporal units in any encoding of lengths) and every block size, the program ends and its output file has the rendered samples of all temporal units, none lost, none doubled. In particular a WAV file that the encoder program encodes as one audio element, as LPCM without loss, comes out of the decoder program as a WAV file with the same samples of the chosen channels, without what was to be trimmed. The WAV file that the encoder writes of a layout of a mix presentation holds just what the layout renders to, temporal unit by temporal unit, in the bit depth of the chosen output format; with the format none there is no file.", "quantifier": "all bit depths, frames, bytes and histories of calls of a WAV writer; all input files, block sizes, decoder settings and rendering back ends of the decoder program; all numbers of temporal units", "why_tests_cant": "Tests decode a few files with a default block size; whether the last units are lost depends on how the end of the file, the blocks and the temporal units fall together.", "anchors": ["iamf/cli/wav_writer.cc: WavWriter::Create, PushFrameDerived, FlushDerived, WritePcmSamples, Abort, MaybeFinalizeFile", "iamf/cli/sample_processor_base.cc: PushFrame, Flush", "iamf/cli/proto_conversion/output_audio_format_utils.cc: ApplyOutputAudioFormatToSampleProcessorFactory", "iamf/cli/decoder_main.cc: main, ReadChunk", "iamf/api/internal_utils/internal_utils.cc: SetupAfterDescriptors, DumpPendingTemporalUnitsToWav", "iamf/cli/proto_conversion/output_audio_format_utils.cc: ApplyOutputAudioFormatToSampleProcessorFactory"]}
{"id": "C58", "title": "The recon gains that the encoder measures", "statement": "For every demixed channel the encoder compares the level of the channel (the square root of the mean square of its samples) with the level of a channel of the layer below that it is mixed into, and with the level of the channel as a decoder would demix it: the gain is 0 if the channel is below -80 dB, 1 if it is not more than 6 dB below the one it is mixed into, and otherwise the number whose square is the ratio of the level of the channel to that of the decoded channel. A gain is found whenever these channels are there; every channel that can be demixed has a channel of the layer below that it is really mixed into. Without loss in coding all gains are 0 or 1 (bytes 0 and 255), and 0 only for what is silent. Findings: the gain does not give a channel its level back (it gets the geometric mean), and for channels that are decoded too weak the gain cannot be made a byte.", "quantifier": "all samples of any number of ticks, all channel labels, all original and decoded frames, all ways to round real numbers", "why_tests_cant": "Tests compute the gain of a few constant signals; that no input without loss ever gets another gain than 0 or 1, which inputs have gains that do not fit a byte, and what a gain does to the level hold for all signals or not at all.", "anchors": ["iamf/cli/recon_gain_generator.cc: ComputeReconGain, ComputeSignalPower, FindRelevantMixedSamples", "iamf/cli/proto_conversion/proto_to_obu/parameter_block_generator.cc: ComputeReconGains, ConvertReconGainsAndFlags", "iamf/cli/labeled_frame.cc: FindSamplesOrDemixedSamples"]}
{"id": "C59", "title": "The mixer of ambisonics", "statement": "For every codec and every preset for ambisonics the encoder makes a mixer and a configuration for as many channels as the order has, with one substream for each channel in order; only third order ambisonics in Opus is projected to 8 coupled substreams. The mixer takes exactly the frames with as many samples in every channel, and no more than a frame has, whatever it was given before, and none after it was flushed. Except for third order ambisonics in Opus it gives them back as they are; there every channel is the sum of the sixteen channels times the entries of the mixing matrix, other channels of the element are left alone, and for every frame the demixing matrix in the bitstream gives the sixteen channels back up to 0.0175 percent of the largest sample, so that the renderer of the decoder gives what the gains for third order ambisonics make of the original channels, up to this part of the sum of the gains. The encoder uses the preset that the user first says for the element. Finding: the mixed channels can be four times as large as the input, and are cut off then.", "quantifier": "all codecs, presets, frame sizes, sequences of frames and samples, layouts, gains, trimming", "why_tests_cant": "Tests push a few frames through the mixer; that the two matrices of 256 numbers undo each other for every sound, how far they do not, and how large the mixed channels become are statements about all samples.", "anchors": ["iamf/cli/ambisonics_mixer.cc: MakeFromPreset, MakeFromAmbisonicsConfig, GetInputLabels, PushFrameDerived, ApplyMixingMatrix", "iamf/cli/sample_processor_base.cc: PushFrame, Flush", "iamf/cli/downmixer_factory.cc: SampleProcessorToDownMixer", "iamf/cli/proto_conversion/downmixing_reconstruction_util.cc: CreateAmbisonicsDownmixers"]}
{"id": "C60", "title": "Parameter data as metadata", "statement": "Data of a mix gain, demixing or recon gain parameter, whatever bytes they were read from, have metadata with the given subblock duration, and the generator of parameter blocks makes exactly these data of the metadata again, in whatever order the maps of recon gains are iterated over, except for recon gains flagged at positions above the twelfth. Data that the generator made of metadata always survive: they have no such positions. Finding: flags for positions above the twelfth are silently dropped.", "quantifier": "all parameter definitions of the three kinds, all data, all orders of iteration, all subblock durations and indices", "why_tests_cant": "Tests convert a few parameter blocks; that the two conversions are inverse is a statement about all data and all iteration orders.", "anchors": ["iamf/cli/proto_conversion/obu_to_proto/parameter_block_metadata_generator.cc: ParameterBlockMetadataGenerator::GenerateParameterSubblockMetadata", "iamf/cli/proto_conversion/proto_to_obu/parameter_block_generator.cc: ParameterBlockGenerator", "iamf/obu/recon_gain_info_parameter_data.cc: ReconGainInfoParameterData::ReadAndValidate"]}
{"id": "C61", "title": "Codec configs and IA sequence headers from metadata", "statement": "For all metadata the generator makes a codec config OBU exactly if the OBU has the header, id, codec, frame size and every field of the decoder config that the metadata say, none of them cut off, with a sample rate and bit depth of IAMF and a frame size from 1 to 96000; only the roll distance is the one that IAMF requires, and the pre-skip the delay of the encoder, if the metadata say that these are to be overridden. The generator for all codec configs succeeds exactly if each has an OBU, and keeps for each id the first. If it is written, a decoder reads the same codec config. An IA sequence header is made exactly if both profiles are given and known, and says them; metadata of an IA sequence header give it back. Findings: a second codec config with the same id is dropped; delays are cut to 16 bits; where char is signed there are no metadata for headers with bytes above 127 in their extension.", "quantifier": "all metadata of codec configs and sequence headers, all OBUs, all delays, all orders and repetitions of ids", "why_tests_cant": "Tests compare a few OBUs with their metadata; that no field is cut off, swapped or lost for any value of any field is a statement about all metadata.", "anchors": ["iamf/cli/proto_conversion/proto_to_obu/codec_config_generator.cc: CodecConfigGenerator::Generate", "iamf/cli/proto_conversion/proto_to_obu/ia_sequence_header_generator.cc: IaSequenceHeaderGenerator::Generate", "iamf/cli/proto_conversion/obu_to_proto/ia_sequence_header_metadata_generator.cc: IaSequenceHeaderMetadataGenerator::Generate", "iamf/cli/proto_conversion/obu_to_proto/obu_header_metadata_generator.cc: ObuHeaderMetadataGenerator::Generate", "iamf/obu/codec_config.cc: CodecConfigObu::Create, SetCodecDelay"]}
{"id": "C62", "title": "Audio elements from metadata", "statement": "For all metadata of a plausible size the generator makes an audio element exactly if no element has that id yet, its codec config exists and an element can say the metadata; then it says them: header, ids, every field of every layer, of the ambisonics (own or preset) or of the objects, and every parameter in order, each covering exactly one frame, none of these cut off. Layers above the first, and no others, have recon gains, and there is a recon gain parameter, exactly if the codec is lossy. Of a list of metadata there is one element for each, exactly if all ids are different and each can be said. If an element is written, a decoder reads the same element. Findings: objects lose their parameters, reserved bits and numbers of objects are cut to a byte, reserved bits of layouts are lost, parameters with several subblocks pass and cannot be written.", "quantifier": "all metadata of audio elements, all codec configs, all numbers of elements, layers, substreams and parameters", "why_tests_cant": "Tests compare a few elements with their metadata; that no field is cut off, swapped or lost, and that exactly the consistent metadata are accepted, is a statement about all metadata.", "anchors": ["iamf/cli/proto_conversion/proto_to_obu/audio_element_generator.cc: AudioElementGenerator::Generate, GenerateParameterDefinitions, ValidateReconGainDefined", "iamf/cli/proto_conversion/proto_utils.cc: GetParamDefinitionBaseArgs", "iamf/obu/audio_element.cc: AudioElementObu::CreateForScalableChannelLayout"]}
{"id": "C63", "title": "Mix presentations from metadata", "statement": "For all metadata of a plausible size the generator makes a mix presentation exactly if a presentation can say the metadata; then it says them: header, id, languages, one annotation per language for the presentation and for each element, every sub-mix in order with its elements, their rendering (mode, profile, positions, gain offsets given in steps of 1/256 dB or as floating point numbers rounded towards zero, with the default in the range, extension), mix gains, layouts and loudness; the types of loudness are the union of those listed, and only what they announce is there. The tag of the encoder comes last if it is wanted; there are at most 255 tags; optional fields are there exactly if the header says so, and then tags are, too. Of a list of metadata there is one presentation for each, in order, or none at all. If such a presentation with at most 256 languages and 28 sub-mixes is written, a reader gets it back. Findings: tags that should be left out are written if the encoder signs, coordinates of positions wrap, presentations that cannot be written are made.", "quantifier": "all metadata of a plausible size, with and without the tag of the encoder, all presentations, all sizes of lists, all finite and other floating point numbers", "why_tests_cant": "The tests try a few fields at a time; that nothing is lost, swapped, cut off or made up holds for all combinations of messages, enumerations and numbers, and only an equivalence shows it.", "anchors": ["iamf/cli/proto_conversion/proto_to_obu/mix_presentation_generator.cc: MixPresentationGenerator::Generate, FillRenderingConfig, CopyLoundessLayout, CopyInfoType, FillMixPresentationTags, FillOptionalFields", "iamf/cli/proto_conversion/proto_utils.cc: ProtoToQFormatOrFloatingPoint, GetParamDefinitionBaseArgs"]}
{"id": "C64", "title": "Arbitrary and metadata OBUs from metadata", "statement": "For all metadata the generator of arbitrary OBUs succeeds exactly if every type and every place of insertion exists; then each OBU has the type, header, payload and place that the metadata say, with an insertion tick exactly for the three places inside temporal units, in the order of the metadata. The generator of metadata OBUs succeeds exactly if each has a message; the OBUs carry these messages, with country code and extension byte narrowed to a byte and the extension byte kept only for country code 255, under a header without flags; whatever of them can be written is read back as the same message. A LEB128 generator is made exactly for the mode with as few bytes as possible and for fixed sizes of 1 to 8 bytes.", "quantifier": "all lists of arbitrary OBU and metadata OBU metadata (all types, hooks, ticks, payloads, messages of any length), all LEB128 settings", "why_tests_cant": "tests try one or two hooks, types and messages; off-by-one tables, dropped fields or narrowing show up only for particular values out of an unbounded set", "anchors": ["iamf/cli/proto_conversion/proto_to_obu/arbitrary_obu_generator.cc: ArbitraryObuGenerator::Generate", "iamf/cli/proto_conversion/proto_to_obu/metadata_obu_generator.cc: MetadataObuGenerator::Generate", "iamf/cli/proto_conversion/proto_utils.cc: CreateLebGenerator", "iamf/cli/proto_conversion/lookup_tables.h: kProtoArbitraryObuTypeAndInternalObuTypes"]}
{"id": "C65", "title": "What metadata declare is what a decoder reads", "statement": "Let an encoder be made from user metadata of sizes that OBUs can have (elements of channels or scenes, mixes of declared elements, arbitrary OBUs of reserved types that are not before the descriptors, no trimming in headers of descriptors), with any codec libraries, factories, sequencers and size encoding. Then the descriptors it answers are not final, and if they are shorter than 4 GiB a decoder that is given these bytes reads all of them and finds: the one declared sequence header; for every id the codec config that is declared first with it, and no others; every declared audio element under its id, all ids being different, with its codec config and the labels of its substreams; and the declared mix presentations in order, all saying what the metadata say, and fitting together. The same holds for the descriptors that the encoder answers after any calls; the final ones may differ in the loudness of layouts, if the finalizer changes nothing else.", "quantifier": "all user metadata within the stated sizes, all codec delays, factories, sequencers, fixed or minimum LEB128 sizes", "why_tests_cant": "It ties together seven generators, the OBU writers, the sorting in the sequencer, and the decoder's reader; tests compare single OBUs of hand-picked metadata with expected fields.", "anchors": ["iamf/cli/iamf_encoder.cc: IamfEncoder::Create, GetDescriptorObus", "iamf/cli/proto_conversion/proto_to_obu/*_generator.cc", "iamf/cli/obu_sequencer_base.cc: ObuSequencerBase::PushDescriptorObus", "iamf/cli/descriptor_obu_parser.cc: DescriptorObuParser::ProcessDescriptorObus"]}
{"id": "C66", "title": "Metadata builders make elements that are accepted and belong together", "statement": "Whatever elements are asked for from one AudioElementMetadataBuilder (any layouts in any order, different element ids, codec configs that exist, at most 2^32 substreams in all), the metadata are populated, the audio element generator accepts them all, each element has the ids, the codec, the loudspeaker layout or ambisonics order that was asked for and no parameters; no substream id is used by two elements; the channels of the element's substreams are, in some order, exactly the distinct labels that the audio frame metadata builder lists for the same layout, in the usual order of files; and what is written for such an element is read back as that element. The LPCM metadata are accepted exactly for legal frame sizes, sample sizes and rates, the Opus metadata exactly for legal frame sizes, with the required roll distance. Labels of the proto and internal labels are converted by inverse functions.", "quantifier": "all sequences of requests to a builder, all element and codec config ids, all layouts, all frame sizes, sample sizes and rates, all labels", "why_tests_cant": "Tests populate one or two elements and compare fields; that ids never collide over any history, and that three tables of the builders agree with the generator's labelling of substreams, is a statement about all histories and several modules.", "anchors": ["iamf/cli/user_metadata_builder/audio_element_metadata_builder.cc: AudioElementMetadataBuilder::PopulateAudioElementMetadata", "iamf/cli/user_metadata_builder/audio_frame_metadata_builder.cc: AudioFrameMetadataBuilder::PopulateAudioFrameMetadata", "iamf/cli/user_metadata_builder/codec_config_obu_metadata_builder.cc", "iamf/cli/user_metadata_builder/iamf_input_layout.cc: LookupInputLayoutFromAudioPackFormatId", "iamf/cli/proto_conversion/channel_label_utils.cc: ChannelLabelUtils::ProtoToLabel, LabelToProto"]}
{"id": "C67", "title": "ADM programmes become mixes of their objects", "statement": "Of programmes that name at most two objects each, of which at most the first has complementary objects, IAMF::Create makes, programme by programme, one mix for every choice among the objects and their complements, with exactly the chosen objects in order. Whatever the ADM, no object becomes two audio elements, every mix comes from a programme of the ADM, and all its objects are objects of the ADM that become audio elements. If objects are listed in the order of their ids and programmes name them in that order, each element and its frames have the layout of the object's pack format. Frames are as long as they can be without exceeding the maximum duration, while the product of milliseconds and rate fits 32 bits. (Where these conditions fail the code does not keep to it: complements of a second object are mixed without the first, programmes after one with more than two objects are lost, layouts are exchanged between objects, and the product wraps.)", "quantifier": "all ADM inputs: all lists of programmes, contents and objects with all ids, complements and pack formats; all frame durations and sample rates", "why_tests_cant": "Tests give a handful of ADM files; the one with complementary objects has a single object, for which the loss of objects does not show. What every file gives, and that two maps and a list in three different orders agree, is a statement about all files.", "anchors": ["iamf/cli/adm_to_user_metadata/iamf/iamf.cc: GenerateAudioObjectGroups, GenerateAudioObjectsMap, ComputeNumSamplesPerFrame, IAMF::Create", "iamf/cli/adm_to_user_metadata/iamf/user_metadata_generator.cc: UserMetadataGenerator::GenerateUserMetadata"]}
{"id": "C68", "title": "Mixes of ADM objects become valid mix presentations", "statement": "Whenever PopulateMixPresentation succeeds for a list of ADM objects and a loudness, MixPresentationGenerator accepts the metadata; the presentation has the id that was given, one language, and one sub-mix with the audio elements of the objects in order, each with its label and its gain in 8.8 bits, an output gain of 0 dB, a stereo layout and then the layouts of the first three objects that ask for one (channel-based and not stereo), all with the programme's integrated loudness and, where ADM has them, true peak and dialogue anchor. It succeeds only if all gains fit 8.8 bits. (An object with a gain other than 0 dB makes a presentation that is refused when parameter definitions are collected.)", "quantifier": "all lists of objects with all pack formats, labels and gains, all loudness values, ids and rates", "why_tests_cant": "Tests populate single mixes and look at fields of the metadata; that every mix is accepted by the next module and what it becomes there spans two modules and all inputs.", "anchors": ["iamf/cli/adm_to_user_metadata/iamf/mix_presentation_handler.cc: MixPresentationHandler::PopulateMixPresentation, CopyLoudness, SubMixAudioElementMetadataBuilder", "iamf/cli/proto_conversion/proto_to_obu/mix_presentation_generator.cc: MixPresentationGenerator::Generate", "iamf/cli/cli_util.cc: CollectAndValidateParamDefinitions"]}
