{"id": "C01", "title": "Size field round trip", "statement": "A finite data size written as an EBML size field with the automatically chosen length is read back as the same size, consuming exactly the bytes written, and is not mistaken for the reserved 'unknown' marker, whatever bytes follow.", "quantifier": "every finite size below 2^35-1 and every continuation of the byte stream", "why_tests_cant": "2^35 sizes times arbitrary following bytes; boundary values at every power of 128", "anchors": ["libebml2/ebmlmain.c:EBML_CodedSizeLength", "libebml2/ebmlmain.c:EBML_CodedValueLength", "libebml2/ebmlmain.c:EBML_ReadCodedSizeValue"]}
{"id": "C02", "title": "Forced-length size field round trip", "statement": "A finite data size written in any explicitly requested field length of 1 to 8 bytes that can hold it is read back as the same size and length.", "quantifier": "every length n in 1..8, every size below 2^(7n)-1, every continuation", "why_tests_cant": "56-bit value space for every length", "anchors": ["libebml2/ebmlmain.c:EBML_CodedValueLength", "libebml2/ebmlmain.c:EBML_ReadCodedSizeValue"]}
{"id": "C03", "title": "All representable sizes are writable", "statement": "Every finite data size an EBML size field can represent (below 2^56-1) survives being written with the automatically chosen length and read back.", "quantifier": "every finite size below 2^56-1", "why_tests_cant": "failures only start at 32 GiB, which no unit test writes", "anchors": ["libebml2/ebmlmain.c:EBML_CodedSizeLength", "libebml2/ebmlmain.c:EBML_CodedValueLength"]}
{"id": "C04", "title": "Unknown-size marker is unambiguous", "statement": "An infinite element's size field decodes as 'unknown' in every field length, and a finite element's size field never does.", "quantifier": "every field length 1..8, every finite size, every continuation", "why_tests_cant": "the collision sits at single values such as 2^35-1 in a 63-bit space", "anchors": ["libebml2/ebmlmain.c:EBML_CodedSizeLength", "libebml2/ebmlmain.c:EBML_CodedValueLength", "libebml2/ebmlmain.c:EBML_ReadCodedSizeValue", "libebml2/ebmlmain.c:EBML_FindNextElement"]}
{"id": "C05", "title": "Size field decoding is local and bounded", "statement": "Decoding a size field never consumes more bytes than are available nor more than 8, its result depends only on the consumed bytes, the value always fits 7 bits per byte, and decoding fails exactly when the first byte is zero or announces more bytes than are available.", "quantifier": "every byte string of every length", "why_tests_cant": "all byte strings", "anchors": ["libebml2/ebmlmain.c:EBML_ReadCodedSizeValue"]}
{"id": "C06", "title": "Size field encoding is canonical per length", "statement": "Re-encoding a decoded finite size with the length it was read with reproduces exactly the bytes that were read, so distinct fields never decode to the same (length, value).", "quantifier": "every byte string that decodes", "why_tests_cant": "all 8-byte strings", "anchors": ["libebml2/ebmlmain.c:EBML_ReadCodedSizeValue", "libebml2/ebmlmain.c:EBML_CodedValueLength"]}
{"id": "C07", "title": "Signed size deltas round trip at natural length", "statement": "A signed size difference coded with its automatically chosen length is read back as the same signed number and length.", "quantifier": "every signed value of magnitude below 2^27, every continuation", "why_tests_cant": "2^28 values with asymmetrical bias boundaries", "anchors": ["libebml2/ebmlmain.c:EBML_CodedSizeLengthSigned", "libebml2/ebmlmain.c:EBML_CodedValueLengthSigned", "libebml2/ebmlmain.c:EBML_ReadCodedSizeSignedValue"]}
{"id": "C08", "title": "Signed size deltas round trip at any admissible length", "statement": "A signed size difference coded with any length at least its natural one (the API takes the length as a parameter), or with any value the API accepts, is read back unchanged.", "quantifier": "every signed value and every length the API accepts", "why_tests_cant": "tests only use the natural length", "anchors": ["libebml2/ebmlmain.c:EBML_CodedSizeLengthSigned", "libebml2/ebmlmain.c:EBML_CodedValueLengthSigned", "libebml2/ebmlmain.c:EBML_ReadCodedSizeSignedValue"]}
{"id": "C09", "title": "Natural lengths are minimal", "statement": "The automatically chosen size-field length is the shortest one that can hold the value without colliding with the unknown marker; likewise for signed differences.", "quantifier": "every value in the supported range", "why_tests_cant": "needs all values, not boundaries somebody thought of", "anchors": ["libebml2/ebmlmain.c:EBML_CodedSizeLength", "libebml2/ebmlmain.c:EBML_CodedSizeLengthSigned"]}
{"id": "C10", "title": "Element IDs round trip", "statement": "Writing an element ID and reading it back yields the same ID and length, for every well-formed 1 to 4 byte ID, whatever follows.", "quantifier": "every valid class A-D ID, every continuation", "why_tests_cant": "2^28 IDs", "anchors": ["libebml2/ebmlelement.c:EBML_FillBufferID", "libebml2/ebmlelement.c:EBML_BufferToID", "libebml2/ebmlelement.c:GetIdLength", "libebml2/ebmlmain.c:EBML_IdFromBuffer"]}
{"id": "C11", "title": "Unsigned integer payload round trip", "statement": "An unsigned 64-bit value stored in an integer element with any admissible payload size is read back unchanged.", "quantifier": "every 64-bit value, every payload size up to 8 that can hold it", "why_tests_cant": "2^64 values", "anchors": ["libebml2/ebmlnumber.c:ReadDataInt", "libebml2/ebmlnumber.c:RenderDataInt", "libebml2/ebmlnumber.c:UpdateSizeInt"]}
{"id": "C12", "title": "Signed integer payload round trip", "statement": "A signed 64-bit value stored in a signed integer element is read back unchanged.", "quantifier": "every signed 64-bit value, every admissible payload size", "why_tests_cant": "2^64 values and platform-dependent char signedness", "anchors": ["libebml2/ebmlnumber.c:ReadDataSignedInt", "libebml2/ebmlnumber.c:RenderDataSignedInt", "libebml2/ebmlnumber.c:UpdateSizeSignedInt"]}
{"id": "C13", "title": "Integer payload sizes are minimal and sufficient", "statement": "The payload size chosen for an integer is the smallest number of bytes (at least the requested minimum) that represents the value.", "quantifier": "every 64-bit value and every requested minimum size", "why_tests_cant": "2^64 values", "anchors": ["libebml2/ebmlnumber.c:UpdateSizeInt", "libebml2/ebmlnumber.c:UpdateSizeSignedInt"]}
{"id": "C14", "title": "Float payload preserves the bits", "statement": "A float element's 8-byte (4-byte) payload is the big-endian image of the stored 64-bit (32-bit) pattern and reading it back restores every bit, including NaN payloads and signed zero.", "quantifier": "every 64-bit and 32-bit pattern", "why_tests_cant": "2^64 patterns incl. NaNs that compare unequal", "anchors": ["libebml2/ebmlnumber.c:RenderDataFloat", "libebml2/ebmlnumber.c:ReadDataFloat"]}
{"id": "C15", "title": "Dates keep whole seconds", "statement": "Setting a date in seconds and reading it back, directly or through the 8-byte payload, gives the same number of seconds; the reserved invalid date is refused.", "quantifier": "every date value of the API's range", "why_tests_cant": "2^32 dates, overflow of the nanosecond product", "anchors": ["libebml2/ebmldate.c:EBML_DateTime", "libebml2/ebmldate.c:EBML_DateSetDateTime", "libebml2/ebmldate.c:ReadData"]}
{"id": "C16", "title": "CRC element value is CRC-32", "statement": "The checksum computed for a buffer equals the standard reflected CRC-32 of its bytes (polynomial 0xEDB88320, initial and final complement), independent of buffer alignment and of the word-at-a-time fast path.", "quantifier": "every byte string and every start alignment", "why_tests_cant": "all byte strings", "anchors": ["libebml2/ebmlcrc.c:EBML_CRCAddBuffer", "libebml2/ebmlcrc.c:EBML_CRCFinalize", "libebml2/ebmlcrc.c:m_tab"]}
{"id": "C17", "title": "CRC accumulation is chunking independent", "statement": "Feeding a buffer in any sequence of pieces gives the same checksum as feeding it at once.", "quantifier": "every byte string and every way to cut it into pieces", "why_tests_cant": "exponentially many cuts", "anchors": ["libebml2/ebmlcrc.c:EBML_CRCAddBuffer"]}
{"id": "C18", "title": "Written checksum verifies", "statement": "The checksum that the writer stores for a payload always verifies against the same payload when read back.", "quantifier": "every payload", "why_tests_cant": "all byte strings", "anchors": ["libebml2/ebmlcrc.c:EBML_CRCMatches", "libebml2/ebmlcrc.c:EBML_CRCFinalize", "libebml2/ebmlcrc.c:RenderData", "libebml2/ebmlcrc.c:ReadData"]}
{"id": "C19", "title": "Checksum detects every short burst", "statement": "If a payload is altered only inside a window of at most 32 consecutive bits, verification against the stored checksum fails.", "quantifier": "every payload of every length, every position, every non-zero error pattern of at most 32 bits", "why_tests_cant": "all error patterns and lengths", "anchors": ["libebml2/ebmlcrc.c:EBML_CRCMatches", "libebml2/ebmlcrc.c:EBML_CRCAddBuffer"]}
{"id": "C20", "title": "Void element occupies the requested space", "statement": "After asking a Void element for a given total size, the element as written occupies exactly that many bytes whenever the call reports success.", "quantifier": "every requested total size", "why_tests_cant": "failures sit at isolated boundaries (128, 16385, ...)", "anchors": ["libebml2/ebmlvoid.c:EBML_VoidSetFullSize", "libebml2/ebmlelement.c:EBML_ElementFullSize", "libebml2/ebmlvoid.c:RenderData"]}
{"id": "C21", "title": "Replacing a Void preserves the layout", "statement": "When a Void is overwritten by another element, the new element plus the filler element span exactly the bytes of the original Void, so the next element still starts at the same position.", "quantifier": "every Void size and every replacement size", "why_tests_cant": "two-dimensional space with off-by-one cliffs", "anchors": ["libebml2/ebmlvoid.c:EBML_VoidReplaceWith"]}
{"id": "C22", "title": "Announced size equals written size", "statement": "For every element tree, the size announced after updating sizes equals the number of bytes produced when the tree is rendered, at every nesting level.", "quantifier": "every finite tree of masters, integers, strings, binaries and Voids, with and without checksums, with and without default values", "why_tests_cant": "unbounded trees; one wrong byte corrupts every following element", "anchors": ["libebml2/ebmlmaster.c:UpdateDataSize", "libebml2/ebmlmaster.c:RenderData", "libebml2/ebmlelement.c:EBML_ElementFullSize", "libebml2/ebmlelement.c:EBML_ElementRender"]}
{"id": "C23", "title": "Document round trip", "statement": "Parsing the bytes produced by rendering a schema-conforming element tree gives back the same tree.", "quantifier": "every schema-conforming tree of every depth and width", "why_tests_cant": "unbounded trees", "anchors": ["libebml2/ebmlmaster.c:ReadData", "libebml2/ebmlmaster.c:RenderData", "libebml2/ebmlmain.c:EBML_FindNextElement"]}
{"id": "C24", "title": "Element head is found where it is", "statement": "When the stream is positioned on a well-formed element head known to the current context and fitting it, the element finder returns that element with the right position, data position, end position and size.", "quantifier": "every ID of the context, every size and size length, every context end that contains it", "why_tests_cant": "all heads and all following bytes", "anchors": ["libebml2/ebmlmain.c:EBML_FindNextElement"]}
{"id": "C25", "title": "Element scanner stays inside its window", "statement": "While hunting for an element in arbitrary (corrupt) data the scanner only touches the 16 bytes of its window.", "quantifier": "every byte stream, every context, every starting offset", "why_tests_cant": "adversarial inputs of unbounded length", "anchors": ["libebml2/ebmlmain.c:EBML_FindNextElement", "libebml2/ebmlmain.c:EBML_ReadCodedSizeValue"]}
{"id": "C26", "title": "Elements found lie inside their parent", "statement": "An element of known size returned by the element finder ends no later than the end of the enclosing context it was matched in.", "quantifier": "every byte stream and every context", "why_tests_cant": "needs an adversarial size close to the parent's end", "anchors": ["libebml2/ebmlmain.c:EBML_FindNextElement"]}
{"id": "C27", "title": "Element scanner terminates", "statement": "On every finite stream the element finder returns after a number of byte reads bounded by the stream length, and each failed attempt advances.", "quantifier": "every byte stream and every context", "why_tests_cant": "non-termination is only visible on the one bad input", "anchors": ["libebml2/ebmlmain.c:EBML_FindNextElement"]}
{"id": "C28", "title": "First-element probe stays inside its buffers", "statement": "Looking for the first element of a stream never writes outside the ID and size buffers.", "quantifier": "every byte stream", "why_tests_cant": "one-byte overflow is silent in tests", "anchors": ["libebml2/ebmlmain.c:EBML_FindNextId"]}
{"id": "C29", "title": "Block header round trip", "statement": "Track number, relative timestamp, keyframe, discardable, invisible and lacing flags written in a block header are read back unchanged; track numbers that do not fit are refused.", "quantifier": "every track number, every 16-bit timestamp, every flag combination", "why_tests_cant": "2^14 * 2^16 * flags", "anchors": ["libmatroska2/matroskamain.c:RenderBlockData", "libmatroska2/matroskamain.c:ReadBlockData", "libmatroska2/matroskamain.c:GetBlockHeadSize"]}
{"id": "C30", "title": "Xiph lacing round trip", "statement": "The frame sizes of a block written with Xiph lacing are recovered exactly when read.", "quantifier": "every list of 1 to 256 frames of any size", "why_tests_cant": "unbounded size lists", "anchors": ["libmatroska2/matroskamain.c:RenderBlockData", "libmatroska2/matroskamain.c:ReadBlockData"]}
{"id": "C31", "title": "EBML lacing round trip", "statement": "The frame sizes of a block written with EBML lacing are recovered exactly when read.", "quantifier": "every list of 2 to 256 frames of sizes below 2^27", "why_tests_cant": "unbounded size lists with signed deltas", "anchors": ["libmatroska2/matroskamain.c:RenderBlockData", "libmatroska2/matroskamain.c:ReadBlockData"]}
{"id": "C32", "title": "Fixed lacing round trip", "statement": "The frame sizes of a block written with fixed-size lacing are recovered exactly when read.", "quantifier": "every list of equal frame sizes", "why_tests_cant": "unbounded", "anchors": ["libmatroska2/matroskamain.c:RenderBlockData", "libmatroska2/matroskamain.c:ReadBlockData", "libmatroska2/matroskamain.c:GetBestLacingType"]}
{"id": "C33", "title": "Automatic lacing is loss free", "statement": "Whatever frames a block holds, the lacing chosen automatically represents them: the frame sizes read back are those written.", "quantifier": "every list of 1 to 256 frames", "why_tests_cant": "choice depends on all sizes", "anchors": ["libmatroska2/matroskamain.c:GetBestLacingType", "libmatroska2/matroskamain.c:RenderBlockData", "libmatroska2/matroskamain.c:ReadBlockData"]}
{"id": "C34", "title": "Announced block size equals written block size", "statement": "The data size computed for a block equals the number of bytes written, for every lacing.", "quantifier": "every frame list, track number and lacing", "why_tests_cant": "unbounded lists", "anchors": ["libmatroska2/matroskamain.c:UpdateBlockSize", "libmatroska2/matroskamain.c:RenderBlockData"]}
{"id": "C35", "title": "Lace header fits its buffer", "statement": "Building the lace header never writes outside the buffer allocated for it.", "quantifier": "every frame list and every lacing kept from the source file", "why_tests_cant": "needs big frames with Xiph lacing", "anchors": ["libmatroska2/matroskamain.c:RenderBlockData"]}
{"id": "C36", "title": "Frame count is preserved", "statement": "The number of frames in a written block is the number read back.", "quantifier": "every frame count", "why_tests_cant": "only fails above 256 frames", "anchors": ["libmatroska2/matroskamain.c:RenderBlockData", "libmatroska2/matroskamain.c:ReadBlockData", "libmatroska2/matroskamain.c:MATROSKA_BlockAppendFrame"]}
{"id": "C37", "title": "Header-stripping compression is loss free", "statement": "With header stripping, every frame starting with the stripped header is restored exactly on reading; a frame that does not start with it is refused on writing.", "quantifier": "every header and every frame list", "why_tests_cant": "all byte strings", "anchors": ["libmatroska2/matroskamain.c:RenderBlockData", "libmatroska2/matroskamain.c:MATROSKA_BlockReadData"]}
{"id": "C38", "title": "Parsed lace sizes add up", "statement": "For every block accepted by the parser the frame sizes add up to the payload that is actually present.", "quantifier": "every block payload", "why_tests_cant": "adversarial inputs", "anchors": ["libmatroska2/matroskamain.c:ReadBlockData"]}
{"id": "C39", "title": "Block timestamps are exact or refused", "statement": "Setting a block's absolute timestamp either fails or makes the block report a timestamp within one tick of the timestamp scale, and exactly equal when the value is a multiple of the scale relative to its cluster.", "quantifier": "every cluster time, timestamp scale and requested time", "why_tests_cant": "three 64-bit dimensions", "anchors": ["libmatroska2/matroskamain.c:MATROSKA_BlockSetTimestamp", "libmatroska2/matroskamain.c:MATROSKA_BlockTimestamp", "libmatroska2/matroskamain.c:MATROSKA_ClusterTimestamp"]}
{"id": "C40", "title": "Moving a block keeps its absolute time", "statement": "Re-parenting a block to another cluster preserves its absolute timestamp when it is representable there.", "quantifier": "every pair of clusters and every block time", "why_tests_cant": "three 64-bit dimensions", "anchors": ["libmatroska2/matroskamain.c:SetBlockParent", "libmatroska2/matroskamain.c:MATROSKA_BlockSetTimestamp"]}
{"id": "C41", "title": "Frame timestamps accumulate durations", "statement": "The start and end time of each frame in a block are the block time plus the durations before it, and consecutive frames abut.", "quantifier": "every duration list", "why_tests_cant": "unbounded lists", "anchors": ["libmatroska2/matroskablock.c:MATROSKA_BlockGetFrameStart", "libmatroska2/matroskablock.c:MATROSKA_BlockGetFrameEnd"]}
{"id": "C42", "title": "Cue lookup returns the latest preceding cue", "statement": "Looking up a time in sorted cues returns the last cue point whose time does not exceed it.", "quantifier": "every sorted cue list and every time", "why_tests_cant": "unbounded lists", "anchors": ["libmatroska2/matroskamain.c:MATROSKA_CuesGetTimestampStart"]}
{"id": "C43", "title": "Cue order is a total preorder", "statement": "Comparing cue points is reflexive, antisymmetric in sign and transitive, so that sorting is well defined.", "quantifier": "every triple of cue points", "why_tests_cant": "triples of 64-bit pairs", "anchors": ["libmatroska2/matroskamain.c:CmpCuePoint"]}
{"id": "C44", "title": "Other sort orders are consistent", "statement": "The comparison functions used to sort attachments, blocks and cluster children are antisymmetric and transitive.", "quantifier": "every triple of elements", "why_tests_cant": "needs unlucky triples", "anchors": ["libmatroska2/matroskamain.c:CmpAttachedFile", "libmatroska2/matroskamain.c:BlockCmp", "libmatroska2/matroskamain.c:ClusterEltCmp"]}
{"id": "C45", "title": "Array operations behave like list operations", "statement": "Append, insert, delete, shrink and clear change the contents of a dynamic array exactly like the corresponding list operation, for every sequence of operations, and report failure only by leaving the array unchanged.", "quantifier": "every sequence of operations with every argument, with every allocation outcome", "why_tests_cant": "unbounded histories", "anchors": ["corec/corec/array/array.c:ArrayAppend", "corec/corec/array/array.c:ArrayInsert", "corec/corec/array/array.c:ArrayDelete", "corec/corec/array/array.c:ArrayShrink", "corec/corec/array/array.c:ArrayClear"]}
{"id": "C46", "title": "Array capacity covers its contents", "statement": "After every sequence of operations the allocated capacity is at least the used size, and capacity never decreases except on clear.", "quantifier": "every sequence of operations", "why_tests_cant": "unbounded histories", "anchors": ["corec/corec/array/array.c:ArrayAlloc", "corec/corec/array/array.c:SizeAlign", "corec/corec/array/array.c:Data_ReAlloc"]}
{"id": "C47", "title": "Sorting permutes", "statement": "Sorting an array yields a permutation of its elements for every comparison function, including inconsistent ones.", "quantifier": "every array, every comparison function that reports an element as not less than itself", "why_tests_cant": "all comparison functions", "anchors": ["corec/corec/array/array.c:ArraySortEx", "corec/corec/array/array.c:InQSort", "corec/corec/array/array.c:SlowSort"]}
{"id": "C48", "title": "Sorting orders", "statement": "With a consistent (total preorder) comparison, sorting yields a non-decreasing array; with the unique option no two neighbours compare equal and every element has an equal representative.", "quantifier": "every array and every total preorder", "why_tests_cant": "all arrays", "anchors": ["corec/corec/array/array.c:ArraySortEx", "corec/corec/array/array.c:InQSort", "corec/corec/array/array.c:SlowSort"]}
{"id": "C49", "title": "Binary search is exact", "statement": "On a sorted array the lookup finds an equal element if there is one, otherwise it reports the insertion point that keeps the array sorted.", "quantifier": "every sorted array, every key", "why_tests_cant": "all arrays", "anchors": ["corec/corec/array/array.c:ArrayFindEx"]}
{"id": "C50", "title": "Sorted-set add and remove", "statement": "Adding to or removing from a sorted array keeps it sorted and duplicate free, and adds or removes exactly that key.", "quantifier": "every sequence of add and remove operations", "why_tests_cant": "unbounded histories", "anchors": ["corec/corec/array/array.c:ArrayAddEx", "corec/corec/array/array.c:ArrayRemoveEx"]}
{"id": "C51", "title": "Fifo preserves byte order", "statement": "Bytes come out of the fifo in the order they were put in, none lost or duplicated, for every interleaving of writes and reads.", "quantifier": "every sequence of fifo operations", "why_tests_cant": "unbounded interleavings", "anchors": ["corec/corec/array/array.c:Fifo_Write", "corec/corec/array/array.c:Fifo_Read", "corec/corec/array/array.c:Fifo_Alloc"]}
{"id": "C52", "title": "Memory stream reads are bounded and exact", "statement": "Reading from a memory stream returns exactly the bytes between the old and new position and never touches bytes outside the block; a short read is reported.", "quantifier": "every block, position and request size", "why_tests_cant": "all histories", "anchors": ["corec/corec/helpers/file/memstream.c:MemRead", "corec/corec/helpers/file/memstream.c:MemSeek"]}
{"id": "C53", "title": "Memory stream writes are all-or-nothing", "statement": "A write to a memory stream either stores all bytes at the current position and leaves all others unchanged, or changes nothing and reports an error.", "quantifier": "every block, position and data", "why_tests_cant": "all histories", "anchors": ["corec/corec/helpers/file/memstream.c:MemWrite"]}
{"id": "C54", "title": "Buffered reading is transparent", "statement": "Reading through the buffered stream delivers the same bytes and the same end-of-file as the underlying stream, for every sequence of read sizes.", "quantifier": "every underlying content, every sequence of read sizes", "why_tests_cant": "unbounded sequences around the 4096-byte buffer", "anchors": ["corec/corec/helpers/file/bufstream.c:BufRead"]}
{"id": "C55", "title": "Buffered writing is transparent", "statement": "After a flush, the underlying stream has received exactly the concatenation of all written pieces, in order.", "quantifier": "every sequence of write sizes", "why_tests_cant": "unbounded sequences around the 4096-byte buffer", "anchors": ["corec/corec/helpers/file/bufstream.c:BufWrite", "corec/corec/helpers/file/bufstream.c:BufFlush"]}
{"id": "C56", "title": "Node tree stays well formed", "statement": "After every sequence of attach, detach, move and delete operations, each node appears exactly once in its parent's child list and its parent link agrees, and sibling lists are acyclic.", "quantifier": "every sequence of tree operations", "why_tests_cant": "unbounded pointer histories", "anchors": ["corec/corec/node/nodetree.c:NodeTree_SetParent", "corec/corec/node/nodetree.c:NodeTree_AddChild", "corec/corec/node/nodetree.c:NodeTree_RemoveChild"]}
{"id": "C57", "title": "Child order is as requested", "statement": "Attaching a node before a given sibling, or at the end, yields the old child order with exactly that node inserted there.", "quantifier": "every tree and every attach position", "why_tests_cant": "unbounded", "anchors": ["corec/corec/node/nodetree.c:NodeTree_SetParent", "corec/corec/node/nodetree.c:NodeTree_MoveBefore"]}
{"id": "C58", "title": "Bounded string copies terminate and fit", "statement": "Bounded copy and concatenation never write past the destination size, always leave a terminated string, and produce the longest prefix of the intended result that fits.", "quantifier": "every source, destination and size", "why_tests_cant": "all strings", "anchors": ["corec/corec/str/str.c:tcscpy_s", "corec/corec/str/str.c:tcsncpy_s", "corec/corec/str/str.c:tcscat_s", "corec/corec/str/str.c:tcsncat_s"]}
{"id": "C59", "title": "Case-insensitive comparison is an ordering", "statement": "ASCII case-insensitive comparison is exactly comparison of the upper-cased strings: an equivalence, and a total preorder consistent with it.", "quantifier": "every pair and triple of strings", "why_tests_cant": "all strings", "anchors": ["corec/corec/str/str.c:tcsicmp_ascii", "corec/corec/str/str.c:tcsisame_ascii", "corec/corec/str/str.c:tcsnicmp_ascii"]}
{"id": "C60", "title": "Four-character codes round trip", "statement": "Converting a four-character code to text and back gives the same code.", "quantifier": "every code made of non-NUL characters that is not padded ambiguously", "why_tests_cant": "2^32 codes", "anchors": ["corec/corec/str/str.c:FourCCToString", "corec/corec/helpers/parser/strtypes.c:StringToFourCC"]}
{"id": "C61", "title": "UTF-8 conversion round trips", "statement": "Every Unicode code point written as UTF-8 is read back unchanged, consuming exactly the written bytes.", "quantifier": "every code point, every continuation", "why_tests_cant": "1.1 million code points times continuations", "anchors": ["corec/corec/helpers/charconvert/charconvert_utf8.c:Read_UTF8", "corec/corec/helpers/charconvert/charconvert_utf8.c:Write_UTF8"]}
{"id": "C62", "title": "Code page conversion round trips", "statement": "For each supported 8-bit code page, decoding a byte to Unicode and encoding it back gives the same byte whenever the byte is assigned.", "quantifier": "every byte of every supported code page", "why_tests_cant": "whole tables", "anchors": ["corec/corec/helpers/charconvert/charconvert_utf8.c:Write_Simple", "corec/corec/helpers/charconvert/charconvert_utf8.c:Read_Simple"]}
{"id": "C63", "title": "Charset conversion output is bounded and terminated", "statement": "Converting a string never writes outside the output buffer and always leaves it terminated; when the buffer is large enough nothing is lost.", "quantifier": "every input string, every output size, every code page pair", "why_tests_cant": "all strings", "anchors": ["corec/corec/helpers/charconvert/charconvert_utf8.c:CharConvSS", "corec/corec/helpers/charconvert/charconvert_utf8.c:Write_UTF8"]}
{"id": "C64", "title": "LZO decompression writes in bounds", "statement": "Decompressing arbitrary (corrupt) data never writes outside the output buffer nor copies from before its start, and the reported size never exceeds it.", "quantifier": "every compressed input and every output capacity", "why_tests_cant": "adversarial inputs", "anchors": ["libmatroska2/lzokay/lzokay.c:lzokay_decompress"]}
{"id": "C65", "title": "LZO decompression reads in bounds", "statement": "Decompressing arbitrary (corrupt) data never reads outside the input buffer.", "quantifier": "every compressed input", "why_tests_cant": "adversarial inputs; over-reads are silent", "anchors": ["libmatroska2/lzokay/lzokay.c:lzokay_decompress"]}
{"id": "C66", "title": "LZO decompression restores literals", "statement": "A stream made of one literal run and the end marker decompresses to exactly the literals.", "quantifier": "every literal run of every length", "why_tests_cant": "unbounded lengths with extended length coding", "anchors": ["libmatroska2/lzokay/lzokay.c:lzokay_decompress"]}
{"id": "C67", "title": "Path reduction terminates", "statement": "Normalising a path finishes and the result contains no redundant parent reference.", "quantifier": "every path string", "why_tests_cant": "non-termination only on particular paths", "anchors": ["corec/corec/helpers/file/tools.c:ReduceLocalPath"]}
{"id": "C68", "title": "Formatted output stays in its buffer", "statement": "Formatting into a buffer never writes past its stated size and always terminates the string.", "quantifier": "every format, argument list and buffer size", "why_tests_cant": "all formats and widths", "anchors": ["corec/corec/str/str.c:vstprintf_s"]}
{"id": "C69", "title": "Stored checksum is independent of the host byte order", "statement": "The four bytes stored for the checksum of a payload are the same whichever byte order the writing host has, so a file written on one host verifies on another.", "quantifier": "every payload, both host byte orders", "why_tests_cant": "needs both builds and all payloads; a test suite runs on one host", "anchors": ["libebml2/ebmlcrc.c:m_tab", "libebml2/ebmlcrc.c:CRC32_INDEX", "libebml2/ebmlcrc.c:EBML_CRCAddBuffer", "libebml2/ebmlcrc.c:RenderData"]}
{"id": "C70", "title": "Elements found are really there", "statement": "Every element of a known type that the element finder returns is backed by the stream: at the reported position are the bytes of its ID, directly followed by a size field that decodes to the reported size, length and end, with a size its type allows, at a level whose schema offers it.", "quantifier": "every byte stream (corrupt or not), every schema, every chain of contexts", "why_tests_cant": "the scanner recovers from garbage by shifting a window; a phantom element needs the one adversarial byte string", "anchors": ["libebml2/ebmlmain.c:EBML_FindNextElement", "libebml2/ebmlmain.c:EBML_ElementCreateUsingContext"]}
{"id": "C71", "title": "Loading never touches memory it must not", "statement": "Reading an element tree from any bytes, in any schema, with or without checksum verification, never dereferences NULL and never reads outside the stream's memory.", "quantifier": "every byte string, schema, start position and option", "why_tests_cant": "adversarial and truncated inputs cannot be enumerated", "anchors": ["libebml2/ebmlmaster.c:ReadData", "libebml2/ebmlelement.c:EBML_ElementSkipData"]}
{"id": "C72", "title": "Changing a cluster's time keeps its blocks' times", "statement": "After the timestamp of a cluster is set, every block in it still reports and stores the absolute timestamp it had before.", "quantifier": "every cluster, every list of blocks, every old and new time", "why_tests_cant": "Whether a block keeps its time depends on whether its time was asked for before and on whether the new offset still fits 16 bits; tests exercise one combination.", "anchors": ["libmatroska2/matroskamain.c:MATROSKA_ClusterSetTimestamp", "libmatroska2/matroskamain.c:MATROSKA_BlockTimestamp"]}
{"id": "C73", "title": "Times in the written file are within one tick", "statement": "A reader of the written file computes for a block a time within one tick of the time that was set, exact when cluster and block times are multiples of the scale.", "quantifier": "every cluster time, block time and timestamp scale", "why_tests_cant": "Two independent roundings add up only for particular remainders.", "anchors": ["libmatroska2/matroskamain.c:MATROSKA_ClusterSetTimestamp", "libmatroska2/matroskamain.c:MATROSKA_BlockSetTimestamp"]}
{"id": "C74", "title": "Appended frames can be got back", "statement": "Getting the n-th frame of a block built by appending frames returns the data of the n-th appended frame, its duration and the accumulated time.", "quantifier": "every list of frames, every index", "why_tests_cant": "Frame boundaries are sums over an unbounded list of sizes, including empty frames.", "anchors": ["libmatroska2/matroskamain.c:MATROSKA_BlockAppendFrame", "libmatroska2/matroskamain.c:MATROSKA_BlockGetFrame"]}
{"id": "C75", "title": "Position in a comma-separated list", "statement": "Looking up a word in a comma-separated list returns the index of the first item that equals it ignoring case, alone or followed by a space, and -1 if there is none.", "quantifier": "every word without comma, every list", "why_tests_cant": "Prefixes of other items, empty items and words longer than the rest of the list are unbounded in number.", "anchors": ["corec/corec/str/str.c:StrListIndex", "corec/corec/str/str.c:tcsnicmp_ascii"]}
{"id": "C76", "title": "Appending strings joins them", "statement": "Appending a string to an array that holds a string joins the two (with merging, the old terminator is taken off first) and leaves the result terminated; a failed append changes nothing.", "quantifier": "every array contents, every string, every allocation outcome", "why_tests_cant": "all contents and allocation failures", "anchors": ["corec/corec/array/array.c:ArrayAppendStr"]}
{"id": "C77", "title": "Fifo keeps a readable tail", "statement": "After every successful write to a fifo, at least 256 bytes of the memory block follow the end of the contents, so that readers may read ahead.", "quantifier": "every history of fifo operations", "why_tests_cant": "unbounded histories", "anchors": ["corec/corec/array/array.c:Fifo_Write"]}
{"id": "C78", "title": "Sorting is stable", "statement": "Elements that compare equal keep their order when an array is sorted.", "quantifier": "every array and every total preorder", "why_tests_cant": "all arrays", "anchors": ["corec/corec/array/array.c:ArraySortEx", "corec/corec/array/array.c:InQSort"]}
{"id": "C79", "title": "Sorting children keeps them", "statement": "Sorting the children of a Cues, Attachments or Cluster element leaves exactly the same children, in another order, without touching memory outside of the list of children.", "quantifier": "every list of children, including those of malformed files", "why_tests_cant": "all lists of children", "anchors": ["libebml2/ebmlmaster.c:EBML_MasterSort", "libmatroska2/matroskamain.c:ClusterEltCmp", "libmatroska2/matroskamain.c:CmpAttachedFile"]}
{"id": "C80", "title": "Sorted cues ascend", "statement": "After sorting the cues, the cue points are in ascending order of their timestamps, and of their track numbers for equal timestamps.", "quantifier": "every list of cue points", "why_tests_cant": "all lists", "anchors": ["libmatroska2/matroskamain.c:MATROSKA_CuesSort", "libebml2/ebmlmaster.c:EBML_MasterSort"]}
{"id": "C81", "title": "Memory stream seeks go where asked", "statement": "Seeking in a memory stream, from the start, the current position or the end, goes to the place asked for, limited to the block; the returned place is also what asking for the position returns, and reading goes on there.", "quantifier": "every history, every offset and origin", "why_tests_cant": "all histories", "anchors": ["corec/corec/helpers/file/memstream.c:MemSeek"]}
{"id": "C82", "title": "Skipping equals reading and dropping", "statement": "Skipping bytes on a stream that cannot seek ends, leaves the stream exactly behind the skipped bytes, and reports the end of file with the number of missing bytes exactly when there are fewer.", "quantifier": "every stream contents and every amount", "why_tests_cant": "unbounded amounts", "anchors": ["corec/corec/helpers/file/streams.c:DummySkip"]}
{"id": "C83", "title": "Buffered reads and writes do not disturb each other", "statement": "Reading from a buffered stream does not change what earlier writes through it deliver to the stream underneath.", "quantifier": "every history of reads and writes", "why_tests_cant": "all histories", "anchors": ["corec/corec/helpers/file/bufstream.c:BufRead", "corec/corec/helpers/file/bufstream.c:BufWrite"]}
{"id": "C84", "title": "No node becomes its own ancestor", "statement": "Attaching elements never makes an element its own ancestor, so that walks to the root and recursive traversals end.", "quantifier": "every history of tree operations", "why_tests_cant": "unbounded histories", "anchors": ["corec/corec/node/nodetree.c:SetParent"]}
{"id": "C85", "title": "Deleting frees exactly the subtree", "statement": "Deleting an element frees it and everything below it (unless somebody else holds a reference), frees nothing else, never touches freed memory, and leaves the parents and children of all other elements as they were, except that its parent loses it.", "quantifier": "every tree built by any history, every element", "why_tests_cant": "unbounded trees; use after free is silent", "anchors": ["corec/corec/node/nodetree.c:NodeTree_Clear", "corec/corec/node/nodetree.c:NodeTree_DetachAndRelease", "corec/corec/node/node.c:Node_Release"]}
{"id": "C86", "title": "Parents notice changes of their children", "statement": "Attaching or detaching an element marks both its old and its new parent so that their sizes are computed again before they are written.", "quantifier": "every tree and every attach", "why_tests_cant": "all trees and places", "anchors": ["libebml2/ebmlmaster.c:AddChild", "libebml2/ebmlmaster.c:RemoveChild", "corec/corec/node/nodetree.c:SetParent"]}
{"id": "C87", "title": "Reading contents keeps the element in place", "statement": "Reading the contents of a master element that is part of a tree leaves it where it is in its parent.", "quantifier": "every tree", "why_tests_cant": "silent loss of an element from its parent", "anchors": ["libebml2/ebmlmaster.c:ReadData", "corec/corec/node/nodetree.c:NodeTree_Clear"]}
{"id": "C88", "title": "8-bit text survives a trip through UTF-8", "statement": "A string in any supported 8-bit code page, converted to UTF-8 and back with enough room, is the same string.", "quantifier": "every string, every 8-bit page, every sufficient buffer size", "why_tests_cant": "all strings over eight whole tables", "anchors": ["corec/corec/helpers/charconvert/charconvert_utf8.c:CharConvSS", "corec/corec/helpers/charconvert/charconvert_utf8.c:Write_Simple"]}
{"id": "C89", "title": "UTF-16 conversion round trips", "statement": "UTF-8 text and text of the 8-bit pages converted to UTF-16 and back with enough room is unchanged, and the UTF-16 form is the standard one; for arbitrary input both directions keep to their buffers and terminate the result.", "quantifier": "every string of scalar values, every size; arbitrary input for the bounds", "why_tests_cant": "all strings of 1.1 million characters", "anchors": ["corec/corec/helpers/charconvert/charconvert_utf8.c:CharConvUS", "corec/corec/helpers/charconvert/charconvert_utf8.c:CharConvSU"]}
{"id": "C90", "title": "A conversion cut short keeps the beginning", "statement": "When the output buffer is too small the result is the beginning of the full result, cut between two characters.", "quantifier": "every string, every buffer size, every page pair", "why_tests_cant": "all strings and sizes", "anchors": ["corec/corec/helpers/charconvert/charconvert_utf8.c:CharConvSS", "corec/corec/helpers/charconvert/charconvert_utf8.c:CharConvUS", "corec/corec/helpers/charconvert/charconvert_utf8.c:Write_UTF8"]}
{"id": "C91", "title": "LZO streams decompress to their meaning", "statement": "Every stream of the documented LZO1X format (literal runs and back references in each encoding, with every length and distance it allows) decompresses to the bytes it describes in any buffer large enough.", "quantifier": "every well-formed stream, every sufficient buffer", "why_tests_cant": "unbounded streams with state-dependent encodings and extended lengths", "anchors": ["libmatroska2/lzokay/lzokay.c:lzokay_decompress"]}
{"id": "C92", "title": "LZO-compressed frames are readable", "statement": "A block frame that is a well-formed LZO1X stream is read back as the bytes it describes, whatever its compression ratio.", "quantifier": "every well-formed stream", "why_tests_cant": "only highly compressible frames show it", "anchors": ["libmatroska2/matroskamain.c:MATROSKA_BlockReadData"]}
{"id": "C93", "title": "Formatted output is the documented text", "statement": "Formatting literal text, decimal and hexadecimal numbers, characters, strings and pointers gives the text printf is documented to give, cut to the size of the buffer.", "quantifier": "every format of these pieces, every argument in range and every buffer size", "why_tests_cant": "all values, widths and cut positions", "anchors": ["corec/corec/str/str.c:vstprintf_s"]}
{"id": "C94", "title": "Appending formatted output keeps the string", "statement": "Appending formatted output to a string leaves the string followed by the formatted text, cut to the size of the whole buffer.", "quantifier": "every string, format, argument list and buffer size", "why_tests_cant": "all lengths at once", "anchors": ["corec/corec/str/str.c:stcatprintf_s"]}
{"id": "C95", "title": "Walking the children of one type visits each once", "statement": "Finding the first child of a type and then the next one until there is none visits exactly the children with its ID, in order; asking for a child that may be created returns the first one and changes nothing if there is one, and else appends exactly one new element of that type.", "quantifier": "every schema, type and list of children, recognised or not", "why_tests_cant": "all lists of children", "anchors": ["libebml2/ebmlmaster.c:EBML_MasterFindFirstElt", "libebml2/ebmlmaster.c:EBML_MasterFindNextElt", "libebml2/ebmlmaster.c:EBML_MasterGetChild"]}
{"id": "C96", "title": "A created element has its mandatory children", "statement": "Creating an element with its default children ends and delivers an element that has every child that is mandatory in the profile, at every depth.", "quantifier": "every element type of Matroska and every profile", "why_tests_cant": "all types in all profiles, and any schema", "anchors": ["libebml2/ebmlmain.c:EBML_ElementCreate", "libebml2/ebmlmaster.c:EBML_MasterAddMandatory"]}
{"id": "C97", "title": "Adding mandatory children adds exactly the missing ones", "statement": "Adding the mandatory children to a master keeps the children it has in place and appends, in schema order, one element of each type that is mandatory, unique, enabled in the profile and missing; repeating it changes nothing.", "quantifier": "every schema without endless mandatory nesting, every profile and list of children", "why_tests_cant": "all lists of children in all schemas", "anchors": ["libebml2/ebmlmaster.c:EBML_MasterAddMandatory"]}
{"id": "C98", "title": "The mandatory check is exact", "statement": "Checking a master for its mandatory children succeeds exactly if, at every depth, every child that is mandatory and enabled in the profile is there.", "quantifier": "every schema, profile and tree", "why_tests_cant": "trees of any depth", "anchors": ["libebml2/ebmlmaster.c:EBML_MasterCheckMandatory"]}
{"id": "C99", "title": "The validator's profile check is exact", "statement": "The validator reports nothing about a tree exactly if at every depth no element is outside the profile, no unique element occurs twice and no element is missing that is mandatory in the profile.", "quantifier": "every tree and profile", "why_tests_cant": "trees of any shape", "anchors": ["mkvalidator/mkvalidator.c:CheckProfileViolation", "libebml2/ebmlmaster.c:EBML_MasterCheckContext"]}
{"id": "C100", "title": "Cleaning leaves only allowed children", "statement": "After checking a master with a callback that asks for removal, every child left is enabled in the profile and not a repetition of a unique type; everything else stays.", "quantifier": "every schema, profile and list of children", "why_tests_cant": "the removal restarts the walk; all orders of children matter", "anchors": ["libebml2/ebmlmaster.c:EBML_MasterCheckContext", "mkclean/mkclean.c:MasterError"]}
{"id": "C101", "title": "mkclean leaves no filler behind", "statement": "mkclean's reduction of a tree ends, and in what remains there is no Void, CRC-32 or unrecognised element at any depth.", "quantifier": "every Matroska tree and every profile", "why_tests_cant": "trees of any depth", "anchors": ["mkclean/mkclean.c:ReduceSize"]}
{"id": "C102", "title": "The context check ends whatever its callback answers", "statement": "Checking a master ends after a bounded number of turns whatever the callback answers to each report, and removes at most one child per report.", "quantifier": "every schema, profile, list of children and callback", "why_tests_cant": "all callbacks", "anchors": ["libebml2/ebmlmaster.c:EBML_MasterCheckContext"]}
{"id": "C103", "title": "Matroska IDs are recognised", "statement": "All Matroska element types have well-formed IDs different from each other, and where the element table allows a type its ID bytes make the reader create an element of that type.", "quantifier": "every type, every parent the table allows, whatever follows the ID", "why_tests_cant": "all pairs of types in all surroundings", "anchors": ["libmatroska2/matroska_sem.c", "libebml2/ebmlmain.c:EBML_ElementCreateUsingContext"]}
{"id": "C104", "title": "Matroska documents round trip", "statement": "A tree of elements that follows the Matroska element table, rendered and loaded again, has the same IDs, values, children and order.", "quantifier": "every tree that follows the table, of any size and depth", "why_tests_cant": "all documents", "anchors": ["libmatroska2/matroska_sem.c", "libebml2/ebmlmaster.c:ReadData", "libebml2/ebmlmaster.c:RenderData"]}
{"id": "C105", "title": "Loading ends", "statement": "Reading a document from a stream ends with an element or an error; no content makes the reader loop or recurse forever.", "quantifier": "every byte sequence, every schema, every starting position, every setting", "why_tests_cant": "non-termination over all inputs", "anchors": ["libebml2/ebmlmaster.c:ReadData", "libebml2/ebmlmain.c:EBML_FindNextElement"]}
{"id": "C106", "title": "What was loaded has a type and comes from the stream", "statement": "Every element a load delivers is of a type the schema allows in its place, its value is decoded from bytes of the stream by the rules of that type, and unknown elements are delivered only if they were asked for; the same holds for all children.", "quantifier": "every byte sequence, conformant or not, every schema", "why_tests_cant": "all corrupt inputs", "anchors": ["libebml2/ebmlmaster.c:ReadData", "libebml2/ebmlmain.c:EBML_FindNextElement", "libebml2/ebmlmain.c:EBML_ElementCreateUsingContext"]}
{"id": "C107", "title": "Live documents load completely", "statement": "A document still being written, whose Segment and last Cluster are of unknown size and which reaches to the end of the stream, is loaded with all its elements in order.", "quantifier": "every tree whose masters of unknown size come last, every stream before it", "why_tests_cant": "all trees", "anchors": ["libebml2/ebmlmaster.c:ReadData", "libebml2/ebmlmain.c:EBML_FindNextElement", "libebml2/ebmlmaster.c:RenderData"]}
{"id": "C108", "title": "Truncated documents load as far as they go", "statement": "Of a document cut at any byte, every element that is completely there is loaded, inside the groups that contain it; a value that is cut is left out; nothing crashes.", "quantifier": "every conformant document of known sizes, every position of the cut", "why_tests_cant": "all documents and cuts", "anchors": ["libebml2/ebmlmaster.c:ReadData", "libebml2/ebmlmain.c:EBML_FindNextElement"]}
{"id": "C109", "title": "Frames can be read, released and read again", "statement": "However a program links a block with its track for reading and writing, reads its frames and releases them, in any order and any number of times, the frames it sees after reading are those stored in the block.", "quantifier": "every block, every encoding, every sequence of link, read and release calls", "why_tests_cant": "unbounded call sequences, all frames", "anchors": ["libmatroska2/matroskamain.c:MATROSKA_LinkBlockReadTrack", "libmatroska2/matroskamain.c:MATROSKA_LinkBlockWriteTrack", "libmatroska2/matroskamain.c:MATROSKA_BlockReadData", "libmatroska2/matroskamain.c:MATROSKA_BlockReleaseData"]}
{"id": "C110", "title": "Seeking to a frame of a block", "statement": "Skipping to a frame of a loaded block positions the stream at the first stored byte of that frame.", "quantifier": "every block payload, every encoding, every frame number", "why_tests_cant": "all payloads and laces", "anchors": ["libmatroska2/matroskamain.c:MATROSKA_BlockSkipToFrame", "libmatroska2/matroskamain.c:CheckCompression"]}
{"id": "C111", "title": "mkclean's Cues name the places of the Clusters", "statement": "Laying out the Cues in front of the Clusters ends, and then every CuePoint names the position at which its Cluster is written, each Cluster starts where the one before ends, and PrevSize is the size of the previous Cluster.", "quantifier": "every list of Clusters, every list of CuePoints linked to blocks of these, every start position, for files below 2^63 bytes", "why_tests_cant": "the size of the Cues depends on the positions and the positions on the size of the Cues; the iteration has to settle for all sizes", "anchors": ["mkclean/mkclean.c:OptimizeCues", "mkclean/mkclean.c:SettleClustersWithCues", "libmatroska2/matroskamain.c:MATROSKA_CuePointUpdate"]}
{"id": "C112", "title": "Remuxing keeps every frame", "statement": "mkclean --remux deals out every frame of every track exactly once and in its order to the new Clusters, and ends.", "quantifier": "every number of tracks, blocks and frames, every timing, lacing and set of keyframes", "why_tests_cant": "unbounded number of blocks and tracks; the outcome depends on how the block times of all tracks interleave", "anchors": ["mkclean/mkclean.c:main"]}
{"id": "C113", "title": "SeekHead entries name the element they are linked to", "statement": "After an entry of a SeekHead linked to an element is updated, reading the entry gives the ID of that element and its position in the file, whatever the entry held before; reading an entry never looks beyond its data.", "quantifier": "every well-formed ID, every position of a file below 2^63 bytes, every list of children of the entry", "why_tests_cant": "all IDs, positions and earlier contents", "anchors": ["libmatroska2/matroskamain.c:MATROSKA_MetaSeekUpdate", "libmatroska2/matroskamain.c:MATROSKA_MetaSeekID", "libmatroska2/matroskamain.c:MATROSKA_MetaSeekAbsolutePos"]}
{"id": "C114", "title": "A copy is written like its original", "statement": "EBML_ElementCopy yields an element that is rendered as exactly the bytes its original is rendered as.", "quantifier": "every element tree, of any depth and width, in a coherent state", "why_tests_cant": "unbounded trees and all values", "anchors": ["libebml2/ebmlmaster.c:Copy", "libebml2/ebmlstring.c:Copy", "libebml2/ebmlbinary.c:Copy", "libebml2/ebmlnumber.c:CopyInt", "libebml2/ebmlvoid.c:Copy"]}
{"id": "C115", "title": "Values stored in a node are read back", "statement": "A value stored in a node under an id and a type is what reading that id and type returns afterwards, until it is stored again; storing under one id never changes what another id reads; references stored are counted.", "quantifier": "every sequence of stores of any ids, types and values, every starting content, every read buffer", "why_tests_cant": "all sequences and values; collisions of ids need particular pairs", "anchors": ["corec/corec/node/node.c:SetData", "corec/corec/node/node.c:Node_ReadData", "corec/corec/node/node.c:Node_GetData", "corec/corec/node/node.c:Node_AddData", "corec/corec/node/node.c:Node_RemoveData"]}
{"id": "C116", "title": "An event reaches everyone registered for it", "statement": "Raising an event of a node calls everyone registered for it when it is raised exactly once, the latest registered first, except those unregistered before their turn, and touches no released memory; callbacks may register and unregister listeners meanwhile.", "quantifier": "every sequence of registering, unregistering and raising, every behaviour of the callbacks", "why_tests_cant": "callbacks can change the list in unboundedly many ways while it is walked", "anchors": ["corec/corec/node/node.c:Node_AddNotify", "corec/corec/node/node.c:Node_RemoveNotify", "corec/corec/node/node.c:Node_Notify", "corec/corec/node/node.c:Node_NotifyInternal", "corec/corec/node/node.c:DataFree"]}
{"id": "C117", "title": "Audio frames play as long as their heads say", "statement": "For an audio block of MPEG, AC-3, E-AC-3, DTS or AAC frames, the durations worked out by MATROSKA_BlockProcessFrameDurations are, frame by frame, the samples over the sampling rate that the head of the frame states by the rules of its format, in whole nanoseconds; reserved values give no duration; only bytes of the block are read; and n frames of one format together are short of the exact time by less than n ns.", "quantifier": "all codecs of the list, all numbers and sizes of frames, all contents", "why_tests_cant": "The heads have many combinations of fields and a test covers the few its sample files use; long DTS frames, old AC-3 and short frames do not occur in samples.", "anchors": ["libmatroska2/matroskablock.c:15-303", "corec/corec/helper.h:47-52"]}
{"id": "C118", "title": "Header stripping by mkclean loses nothing", "statement": "When mkclean --optimize looks for a header to strip, the header of a track is the longest common beginning of all its frames that can be read and are not compressed, in whatever order the blocks of all tracks come; and every such block written with that header stripped can be read back frame by frame.", "quantifier": "all files, numbers of tracks, blocks and frames, all frame contents within the limits of a block", "why_tests_cant": "It depends on the contents of every frame of a file; a single frame at the end that differs makes a wrong header lose data.", "anchors": ["mkclean/mkclean.c:1402-1481", "mkclean/mkclean.c:2246-2295", "libmatroska2/matroskamain.c:1915-1932"]}
{"id": "C119", "title": "Automatic lacing is the shortest", "statement": "A block built by appending frames is written with the lacing that takes the fewest bytes among those that can express the sizes of its frames.", "quantifier": "all numbers and sizes of frames, all encodings", "why_tests_cant": "A wrong choice still gives a readable file, so round-trip tests pass.", "anchors": ["libmatroska2/matroskamain.c:1642-1723"]}
{"id": "C120", "title": "mkclean keeps the times of Clusters when it changes the TimestampScale", "statement": "mkclean settles on a TimestampScale for every input file (the smallest doubling of the file's own that is at least 100000, or the one asked for), and the time of each Cluster in the output is the time in the source within one tick of the new scale.", "quantifier": "all TimestampScales, all Timestamps, with and without Cues, any number of Clusters", "why_tests_cant": "Nearly all files use the scale 1000000, for which nothing changes; the loop and the rescaling depend on every value.", "anchors": ["mkclean/mkclean.c:1870-1878", "mkclean/mkclean.c:2893-2917", "libmatroska2/matroskamain.c:106-142"]}
{"id": "C121", "title": "Cues of the source keep naming their blocks", "statement": "Each Cue of the source that names the time and track of a block is linked with such a block, wherever it is, and written with the time and track of that block.", "quantifier": "all Clusters, all lists of Cues in any order, all scales", "why_tests_cant": "The search starts at the previous match and falls back to all Clusters, so the outcome depends on the order of all Cues and Clusters.", "anchors": ["mkclean/mkclean.c:411-449", "mkclean/mkclean.c:531-555", "libmatroska2/matroskamain.c:897-926"]}
{"id": "C122", "title": "Generated Cues name keyframes, one per Cluster, 800 ms apart", "statement": "Every Cue mkclean generates names the first keyframe of the main track in a Cluster; there is at most one per Cluster, they are in order and at least 800 ms apart; a Cluster with a keyframe of the main track has none only if that keyframe is less than 800 ms after the Cue of an earlier Cluster.", "quantifier": "all sequences of Clusters with any blocks and groups at any times", "why_tests_cant": "Spacing and coverage are relations over all pairs of Clusters.", "anchors": ["mkclean/mkclean.c:751-833"]}
{"id": "C123", "title": "Clusters are written with ascending times", "statement": "The Clusters mkclean writes have strictly ascending times and Timestamps, none earlier than in the source, and Clusters already in order keep their times.", "quantifier": "all lists of Cluster times, all scales", "why_tests_cant": "One moved Cluster can push any number of later ones; only an invariant over the whole loop covers that.", "anchors": ["mkclean/mkclean.c:657-689", "mkclean/mkclean.c:3109-3121"]}
{"id": "C124", "title": "The bit reader gives the bits of the data in order", "statement": "Reading, looking ahead and skipping up to 32 bits at a time from a chain of fragments gives exactly the bits of the joined data, least significant bit first; a request beyond the end fails and every later read fails; nothing outside a fragment is read; the reported position and end are right.", "quantifier": "all data, all ways of cutting it into fragments (also empty ones), all sequences of calls", "why_tests_cant": "There is a fast path and a byte-wise path with a case for each number of bytes and bit offset; which is taken depends on the fragment boundaries.", "anchors": ["libmatroska2/tremor/bitwise.c:35-264"]}
{"id": "C125", "title": "mkvalidator's verdict follows from the errors it prints", "statement": "When mkvalidator exits, its exit status is 0, and the file is called valid, exactly if it printed no error line.", "quantifier": "all files (outcome of reading each element, all values in them), all combinations of options", "why_tests_cant": "Every one of some fifty checks combines its code into one number that is cut to eight bits at the end; which combinations vanish cannot be seen from samples.", "anchors": ["mkvalidator/mkvalidator.c:110-156", "mkvalidator/mkvalidator.c:953-1379"]}
{"id": "C126", "title": "Video sizes are judged by the documented rules", "statement": "For a video track mkvalidator reports exactly: a display size of zero or missing, a display size too small for the picture, cropping that leaves nothing, cropping of a picture without square pixels; and it ends.", "quantifier": "all Video elements with sizes below 2^31, Matroska and WebM", "why_tests_cant": "Nine optional numbers and a Euclid loop; the branches depend on products and on divisibility.", "anchors": ["mkvalidator/mkvalidator.c:183-294"]}
{"id": "C127", "title": "mkvalidator ends for every file", "statement": "mkvalidator exits for every file: it neither crashes nor runs on forever.", "quantifier": "all files (outcome of reading each element, all values in them), all combinations of options", "why_tests_cant": "What breaks is one TrackNumber out of 65536, one display size, or one missing element in combination with others.", "anchors": ["mkvalidator/mkvalidator.c:183-192", "mkvalidator/mkvalidator.c:633-704", "mkvalidator/mkvalidator.c:953-1366", "libmatroska2/matroskamain.c:331-363"]}
{"id": "C128", "title": "Video that does not start with a keyframe is reported", "statement": "mkvalidator warns exactly about the Clusters in which a video track does not start with a keyframe, about Clusters whose Timestamps do not ascend or are missing, and about blocks with an unknown track number.", "quantifier": "all lists of Clusters, all lists of tracks with TrackNumbers below 65535", "why_tests_cant": "The verdict depends on the order of the blocks of all tracks within each Cluster.", "anchors": ["mkvalidator/mkvalidator.c:633-704"]}
{"id": "C129", "title": "Blocks are checked against their tracks", "statement": "mkvalidator reports exactly the files with a laced block of a track without lacing, a non-keyframe of a track that only has keyframes, or a block of a track that does not exist.", "quantifier": "all lists of Clusters and tracks", "why_tests_cant": "Track numbers are narrowed to 16 bits with a sign on the way.", "anchors": ["mkvalidator/mkvalidator.c:568-631", "mkvalidator/mkvalidator.c:733-812"]}
{"id": "C130", "title": "SeekHead entries are checked", "statement": "mkvalidator finds no error in a SeekHead exactly if each of its entries gives the place of the element it names; and it warns exactly if an element is not mentioned.", "quantifier": "all SeekHeads and all places of elements", "why_tests_cant": "Ten kinds of entries times presence and place of the elements.", "anchors": ["mkvalidator/mkvalidator.c:449-559"]}
{"id": "C131", "title": "PrevSize and Position are checked", "statement": "mkvalidator reports exactly the Clusters whose PrevSize is not the size of the Cluster before or whose Position is not their place in the Segment.", "quantifier": "all lists of Clusters, also with other elements between them", "why_tests_cant": "Needs every arrangement of Clusters and other elements.", "anchors": ["mkvalidator/mkvalidator.c:706-731"]}
{"id": "C132", "title": "Cue points are checked", "statement": "mkvalidator reports exactly the cue points for which there is no block of their track at their time, and warns exactly if they are not in order.", "quantifier": "all lists of cue points and Clusters, all TimestampScales", "why_tests_cant": "The search runs over all blocks of all Clusters for each cue point.", "anchors": ["mkvalidator/mkvalidator.c:814-853", "libmatroska2/matroskamain.c:897-926"]}
{"id": "C133", "title": "Void data is counted", "statement": "mkvalidator warns about void data exactly if the file holds more than 4096 bytes of it, in whatever elements it stands.", "quantifier": "all files", "why_tests_cant": "Void elements can be nested at any depth and repeated any number of times.", "anchors": ["mkvalidator/mkvalidator.c:160-181", "mkvalidator/mkvalidator.c:1365-1366"]}
{"id": "C134", "title": "Codecs and AttachmentLinks of tracks are checked", "statement": "mkvalidator reports exactly the tracks whose codec or type the WebM profile does not allow (names compared without case), whose AttachmentLinks name no attachment, or which are audio with a sampling frequency of zero.", "quantifier": "all lists of tracks and attachments, with and without the WebM profile", "why_tests_cant": "Any mixture of tracks, codecs and links.", "anchors": ["mkvalidator/mkvalidator.c:282-400"]}
{"id": "C135", "title": "A file without errors is consistent", "statement": "If mkvalidator reports no error then every block belongs to a track and respects its lacing and keyframe rules, every Position and SeekHead entry is right, every cue point has its block and every AttachmentLink its attachment.", "quantifier": "all files, all arrangements of the elements of the Segment", "why_tests_cant": "It ties together all checks over all arrangements of elements; a test covers one file.", "anchors": ["mkvalidator/mkvalidator.c:858-1390"]}
{"id": "C136", "title": "Whole Matroska documents with blocks survive writing and loading", "statement": "A document (Segment, Cluster, or any part of one) that follows the Matroska element table, with SimpleBlocks and Blocks on any tracks, each track with its own content encoding, is written to bytes which, found at any place of a file, load as the same elements, values, nesting and order, checksums verified, and every block is read back with its track number, timestamp, flags, frame sizes and frame data.", "quantifier": "all documents following the table, of any size and depth, all blocks with 1 to 256 frames, all encodings that invert, all positions in all files, whatever follows", "why_tests_cant": "The combinations of nesting, block contents, encodings and surrounding bytes are unbounded; a block reader that looks past the end of its block depends on what follows.", "anchors": ["libebml2/ebmlmaster.c:271-421", "libebml2/ebmlelement.c:258-326", "libmatroska2/matroskamain.c:1407-1554", "libmatroska2/matroskamain.c:1725-1944", "libmatroska2/matroskamain.c:1978-2070"]}
{"id": "C137", "title": "Changing a track's compression keeps its CodecPrivate", "statement": "However a program sets and resets the compression of a track (algorithm and scope, header stripping, none) and has its size computed, the CodecPrivate a player recovers from the track as written is the one it had.", "quantifier": "all tracks, all CodecPrivate data, all sequences of calls, all inverting compressors", "why_tests_cant": "The state depends on the whole history of calls and on whether the data happens to be compressible.", "anchors": ["libmatroska2/matroskamain.c:2255-2358", "libmatroska2/matroskamain.c:2389-2450", "libmatroska2/matroskamain.c:184-221"]}
{"id": "C138", "title": "The block compression reported is the one set", "statement": "After setting the compression of a track, the compression reported for its blocks is the algorithm set if the scope covers blocks, header stripping if bytes to strip were given, and none otherwise, and the call tells whether the track had encodings before.", "quantifier": "all tracks, scopes, algorithms and headers", "why_tests_cant": "All prior states of the track.", "anchors": ["libmatroska2/matroskamain.c:2369-2450"]}
{"id": "C139", "title": "Cleaning tracks keeps the aspect ratio of pictures", "statement": "When mkclean simplifies the display size of a video track, the picture is shown with the same pixels and the same aspect ratio as before (for sizes that are not pixels: the same size).", "quantifier": "all pixel sizes, display sizes, units and crops", "why_tests_cant": "Unbounded combinations of sizes; the outcome depends on divisibility.", "anchors": ["mkclean/mkclean.c:1016-1137", "mkclean/mkclean.c:846-880"]}
{"id": "C140", "title": "Cleaning tracks keeps the crop of pictures", "statement": "The crop values of a video track are the same after mkclean cleaned the track, unless they leave nothing of the picture.", "quantifier": "all pixel sizes, display sizes, units and crops", "why_tests_cant": "Unbounded combinations of sizes and units.", "anchors": ["mkclean/mkclean.c:857-880", "mkclean/mkclean.c:1032-1137"]}
{"id": "C141", "title": "A plausible display size in pixels is kept", "statement": "A display size given in pixels stays as it is unless it looks like an aspect ratio, that is, unless it is much smaller than the picture.", "quantifier": "all pixel and display sizes", "why_tests_cant": "Depends on arithmetic relations between four numbers.", "anchors": ["mkclean/mkclean.c:1086-1121"]}
{"id": "C142", "title": "Cleaning a picture size twice is cleaning it once", "statement": "Cleaning the sizes of a video track that mkclean already cleaned changes nothing.", "quantifier": "all pixel sizes, display sizes, units and crops", "why_tests_cant": "Idempotence over all values.", "anchors": ["mkclean/mkclean.c:1016-1137"]}
{"id": "C143", "title": "The tracks that are left are fit to be written", "statement": "After mkclean cleaned the tracks of a file there is at least one track; each has a number, a type, a codec or an operation, a sampling frequency that is not 0 if it is audio, links only to attachments that exist, and in a WebM file a codec WebM allows.", "quantifier": "all lists of tracks, attachments, profiles", "why_tests_cant": "All lists of tracks, including those that restart the cleaning.", "anchors": ["mkclean/mkclean.c:974-1400"]}
{"id": "C144", "title": "Tracks of recent files are only cleaned", "statement": "For a file that is not of an old profile, mkclean keeps exactly the tracks that are complete and allowed, in their order; each keeps its number, UID, type, codec, operations, flags, stereo mode and other elements, its output sampling rate and look; only dangling attachment links and redundant values are removed. It does not crash on any track.", "quantifier": "all lists of tracks", "why_tests_cant": "All lists of tracks with all combinations of missing and odd values.", "anchors": ["mkclean/mkclean.c:974-1400"]}
{"id": "C145", "title": "Track numbers and UIDs stay different", "statement": "If the tracks of a file have different numbers and UIDs, so have the tracks after mkclean cleaned them, including the combined tracks it adds.", "quantifier": "all lists of tracks", "why_tests_cant": "New numbers depend on all the others; pairs of eyes may be repeated any number of times.", "anchors": ["mkclean/mkclean.c:882-892", "mkclean/mkclean.c:1190-1277"]}
{"id": "C146", "title": "Combined tracks name tracks of the file", "statement": "If the planes of all combined tracks name tracks of the file, they do after mkclean cleaned the tracks, including the combined tracks it adds.", "quantifier": "all lists of tracks", "why_tests_cant": "Any number of pairs and of tracks that are removed between them.", "anchors": ["mkclean/mkclean.c:974-1400"]}
{"id": "C147", "title": "The main track is the first video, else the first audio", "statement": "The main track mkclean picks is the first video track, or the first audio track of a file without video; the order of tracks it fills has the number of every track once, in the order of the file, the main track last.", "quantifier": "all lists of tracks", "why_tests_cant": "All orders and types of tracks.", "anchors": ["mkclean/mkclean.c:699-749"]}
{"id": "C148", "title": "Cleaning tracks ends", "statement": "Cleaning the tracks ends after a number of steps quadratic in the number of tracks, whatever the tracks hold, although combining two eyes starts it again.", "quantifier": "all lists of tracks, all values", "why_tests_cant": "Termination.", "anchors": ["mkclean/mkclean.c:846-855", "mkclean/mkclean.c:974-1400"]}
{"id": "C149", "title": "Old stereo modes become what they mean", "statement": "In a file of an old profile the old stereo mode of each track becomes the new mode that means the same: both eyes in a picture become side by side, a single eye becomes mono, other modes stay.", "quantifier": "all lists of tracks", "why_tests_cant": "A track may be cleaned any number of times, depending on the others.", "anchors": ["mkclean/mkclean.c:1139-1281"]}
{"id": "C150", "title": "Linking keeps exactly the blocks that can be played", "statement": "Linking the blocks of a Cluster with the tracks, told to drop what does not match, keeps in their order all other elements and exactly the blocks whose track is present and has a supported encoding, each linked with the first track of its number and with its frame sizes after decoding; told to keep what does not match it drops nothing.", "quantifier": "all lists of tracks, all Clusters", "why_tests_cant": "All combinations of track numbers, encodings and orders of children.", "anchors": ["libmatroska2/matroskamain.c:323-347", "libmatroska2/matroskamain.c:928-963", "libmatroska2/matroskamain.c:257-303"]}
{"id": "C151", "title": "mkclean keeps the blocks it can decode and marks audio and subtitles as keyframes", "statement": "The Clusters mkclean goes on with contain, in order, everything that is no block and exactly the blocks with a supported track; the blocks of audio and subtitle tracks are keyframes and, as SimpleBlocks, not discardable, all other blocks keep their marks; SimpleBlocks are refused for the old profiles only; linking with the tracks to write drops nothing more.", "quantifier": "all lists of tracks, all lists of Clusters, with and without live offset and old profile", "why_tests_cant": "Loss of a block in a rare combination is silent.", "anchors": ["mkclean/mkclean.c:451-528", "mkclean/mkclean.c:1942-1953", "mkclean/mkclean.c:2206-2236"]}
{"id": "C152", "title": "FlagLacing of the output says whether there are laces", "statement": "In the file mkclean writes a track has FlagLacing 0 exactly if none of its blocks has more than one frame, and otherwise no FlagLacing (default 1).", "quantifier": "all tracks, all Clusters", "why_tests_cant": "Track numbers index a table sized by a conversion to int; needs extreme numbers.", "anchors": ["mkclean/mkclean.c:451-528", "mkclean/mkclean.c:1942-1953", "mkclean/mkclean.c:2753-2775"]}
{"id": "C153", "title": "Splitting a path loses nothing", "statement": "Directory, name and extension put together again, with the delimiter and the dot, give the path; name and extension contain no delimiter and the extension no dot; the fragment of an http address is left out.", "quantifier": "all paths and addresses", "why_tests_cant": "Paths are arbitrary strings with protocols, hosts, several dots and delimiters of two kinds.", "anchors": ["corec/corec/helpers/file/tools.c:42-146"]}
{"id": "C154", "title": "mkclean's own choice of an output name is beside the input and not the input", "statement": "Without an output name mkclean writes to the directory of the input, to the name of the input with `clean.` in front, never to the input itself.", "quantifier": "all paths of inputs, all sizes of the buffers with room", "why_tests_cant": "Overwriting the input needs names that fill a buffer.", "anchors": ["mkclean/mkclean.c:1704-1721", "corec/corec/helpers/file/tools.c:77-146"]}
{"id": "C155", "title": "mkparts writes each part to a file of its own", "statement": "Every part gets a file name, different parts get different ones, and none of them is the input.", "quantifier": "all paths of inputs, all numbers of parts", "why_tests_cant": "All pairs of parts.", "anchors": ["mkparts/mkparts.c:298-311", "corec/corec/str/str.c:1051-1405"]}
{"id": "C156", "title": "Relative paths lead back to the path", "statement": "A path made relative to a base directory and absolute again with the same base is the path itself.", "quantifier": "all bases and paths below them, with and without protocol and host", "why_tests_cant": "Arbitrary strings, several kinds of roots.", "anchors": ["corec/corec/helpers/file/tools.c:148-183", "corec/corec/helpers/file/tools.c:231-300"]}
{"id": "C157", "title": "Going to the parent directory splits the path and ends", "statement": "The parent, delimiters and the last part give the path; there is a parent exactly for paths which are neither empty nor a host alone; going up again and again ends.", "quantifier": "all paths, all numbers of steps", "why_tests_cant": "Termination for all paths.", "anchors": ["corec/corec/helpers/file/tools.c:29-40", "corec/corec/helpers/file/tools.c:185-229"]}
{"id": "C158", "title": "The type of a file is that of its extension in the list", "statement": "The type found is the one of the first entry of the list whose extension is that of the file, where case and a query behind the name do not count, and 0 if there is none.", "quantifier": "all file names, all lists of extensions and types", "why_tests_cant": "Prefixes of extensions and positions in the list.", "anchors": ["corec/corec/helpers/file/tools.c:351-371", "corec/corec/helpers/file/file_libc.c:214"]}
{"id": "C159", "title": "Decompressing a bzip2 frame always ends and stays in bounds", "statement": "Reading a frame compressed with bzip2 gives data or an error: no loop runs on, no table or buffer of the decompressor is accessed outside of its bounds and no entry is read that was never written.", "quantifier": "all byte sequences as the frame", "why_tests_cant": "The input is attacker controlled and reaches code tables, selectors, the move-to-front table and the permutation; the bad combinations are not found by samples.", "anchors": ["libmatroska2/bzip2/decompress.c:106-646", "libmatroska2/bzip2/bzlib.c:572-858", "libmatroska2/matroskamain.c:1129-1175"]}
{"id": "C160", "title": "A bzip2 stream gives the data it was made of", "statement": "For every stream of the bzip2 format, whatever the compressor chose, the frame read is the data that was compressed; every data can be written that way; bytes behind the stream do not matter.", "quantifier": "all data of any length, all block sizes, all choices of a compressor (runs, equal rotations, randomisation, maps, codes, tables)", "why_tests_cant": "The choices of compressors other than the one at hand do not occur in tests.", "anchors": ["libmatroska2/bzip2/decompress.c:106-646", "libmatroska2/bzip2/huffman.c:170-200", "libmatroska2/bzip2/bzlib.c:572-858"]}
{"id": "C161", "title": "A bzip2 frame is accepted only with its checksums", "statement": "If a frame is accepted, its bits hold the mark of the end with the combined checksum of the blocks put out, and for each block the mark of a block with the checksum of its data.", "quantifier": "all byte sequences as the frame", "why_tests_cant": "A check that is skipped on some path only shows with input that is damaged in the right place.", "anchors": ["libmatroska2/bzip2/bzlib.c:808-858", "libmatroska2/bzip2/decompress.c:222-249"]}
{"id": "C162", "title": "A cut off bzip2 frame is refused, bytes behind are ignored", "statement": "A stream of the format without its last byte or more is refused with an error; bytes behind any accepted input change nothing.", "quantifier": "all streams, all places to cut; all inputs and all bytes behind", "why_tests_cant": "All lengths of all streams, around the steps of 1024 bytes of output.", "anchors": ["libmatroska2/matroskamain.c:1154-1171", "libmatroska2/matroskamain.c:1285-1302", "libmatroska2/bzip2/decompress.c:43-71"]}
{"id": "C163", "title": "Compressing a frame with zlib is complete", "statement": "Compressing a frame ends, gives all of the compressed stream, and reports its size, given a deflate that keeps to its documentation.", "quantifier": "every frame, every compressed size, every way deflate hands out its output", "why_tests_cant": "unbounded frame sizes and expansion ratios; an endless loop is not an outcome a test can see", "anchors": ["libmatroska2/matroskamain.c:CompressFrameZLib"]}
{"id": "C164", "title": "Decompressing a zlib frame is complete and ends", "statement": "Decompressing a complete zlib stream gives all its data, and decompressing anything ends with an error or data, given an inflate that keeps to its documentation.", "quantifier": "every stream, every size of data", "why_tests_cant": "unbounded sizes; sizes that are multiples of the step of the output buffer are easily missed", "anchors": ["libmatroska2/matroskamain.c:UnCompressFrameZLib"]}
{"id": "C165", "title": "Blocks of bzip2 frames are read", "statement": "Reading a block of a track compressed with bzip2 gives header and frames as they were before packing, for every lacing, however each frame was packed; and every frame can be packed.", "quantifier": "every lacing, every list of 1 to 256 frames, every choice of bzip2 blocks and tables per frame, every block header", "why_tests_cant": "unbounded frames and encoder choices", "anchors": ["libmatroska2/matroskamain.c:MATROSKA_BlockReadData", "libmatroska2/matroskamain.c:ReadBlockData", "bzip2/bzlib.c"]}
{"id": "C166", "title": "Looking for the durations of Vorbis frames has no undefined behaviour", "statement": "Reading a block of a Vorbis track with durations ends, with an error or a duration for each frame, and nowhere reads or writes beyond an array, divides by zero or shifts by a negative number; headers that are accepted refer only to things that are there.", "quantifier": "every CodecPrivate, every block data, every list of frame sizes", "why_tests_cant": "headers are bit streams with nested tables; the bad cases are single values among billions, or truncations at one bit position", "anchors": ["libmatroska2/matroskablock.c:MATROSKA_BlockProcessFrameDurations", "libmatroska2/tremor/info.c:vorbis_synthesis_headerin", "libmatroska2/tremor/floor1.c:floor1_unpack", "libmatroska2/tremor/res012.c:res0_unpack", "libmatroska2/tremor/codebook.c:vorbis_staticbook_unpack"]}
{"id": "C167", "title": "Vorbis headers are read as they were written", "statement": "The three headers of a Vorbis track, laced in CodecPrivate as Matroska has them, are accepted and give every field with the value that was written; what is accepted is well formed.", "quantifier": "every well formed set of headers: any codebooks, floors, residues, mappings, modes, comments of any length", "why_tests_cant": "unbounded nested data; test files tend to have short comments and usual codebooks", "anchors": ["libmatroska2/matroskablock.c:MATROSKA_BlockProcessFrameDurations", "libmatroska2/tremor/info.c:vorbis_synthesis_headerin", "libmatroska2/tremor/sharedbook.c:_book_maptype1_quantvals"]}
{"id": "C168", "title": "Durations of Vorbis frames", "statement": "The duration found for a Vorbis frame is the time its block takes at the rate of the track, where the block size is that of the mode named in the first byte of the frame.", "quantifier": "every well formed set of headers, every list of frames, every first byte", "why_tests_cant": "all combinations of modes, rates and first bytes; a wrong duration looks plausible", "anchors": ["libmatroska2/matroskablock.c:MATROSKA_BlockProcessFrameDurations"]}
{"id": "C169", "title": "The file mkclean writes has one Segment of the size it announces", "statement": "A file mkclean finishes is the EBML head, followed by one Segment whose size field gives exactly the number of bytes that follow, which are: SeekHead, a Void, the sections, the Cues and the Clusters, each a complete element.", "quantifier": "every source size, every list of sections, every CuePoint and Cluster, any sizes", "why_tests_cant": "depends on where sizes cross the borders of the coded lengths; unbounded lists", "anchors": ["mkclean/mkclean.c:main", "mkclean/mkclean.c:WriteCluster"]}
{"id": "C170", "title": "The SeekHead mkclean writes leads to every section", "statement": "In every file mkclean finishes, the SeekHead has exactly one entry for each section, for the Cues and for the first Cluster, and at the position named, counted from the data of the Segment, that element starts.", "quantifier": "every source size, every list of sections, every CuePoint and Cluster, any sizes below 2^63", "why_tests_cant": "positions and the size of the SeekHead depend on each other; unbounded lists", "anchors": ["mkclean/mkclean.c:main", "libmatroska2/matroskamain.c:MATROSKA_MetaSeekUpdate"]}
{"id": "C171", "title": "The Cues mkclean writes lead to the Clusters", "statement": "In every file mkclean finishes with Cues, there is one CuePoint for each one planned, and at the position it names, counted from the data of the Segment, the Cluster of its Block starts.", "quantifier": "every source size, every list of sections, every CuePoint and Cluster, any sizes below 2^63", "why_tests_cant": "positions are planned before sizes are known; errors appear only where a size crosses a border", "anchors": ["mkclean/mkclean.c:main", "mkclean/mkclean.c:SettleClustersWithCues", "libmatroska2/matroskamain.c:MATROSKA_CueUpdateFromBlock"]}
{"id": "C172", "title": "PrevSize is the size of the Cluster before", "statement": "In every file mkclean finishes with Cues and without --unsafe, each Cluster but the first says in its PrevSize how many bytes the Cluster before takes.", "quantifier": "every list of Clusters and blocks, any sizes", "why_tests_cant": "needs Clusters that change after their sizes were planned", "anchors": ["mkclean/mkclean.c:SettleClustersWithCues", "mkclean/mkclean.c:WriteCluster"]}
{"id": "C173", "title": "mkclean finishes", "statement": "For blocks that can be read in Clusters of increasing times, and CuePoints linked to them, mkclean writes the file; it never follows a NULL pointer while doing so and never gives up.", "quantifier": "every source size, every list of sections, every CuePoint and Cluster, any sizes below 2^63", "why_tests_cant": "giving up depends on exact sizes of several sections", "anchors": ["mkclean/mkclean.c:main"]}
{"id": "C174", "title": "What mkclean wrote is what is read", "statement": "From every Cluster of a file mkclean finished, the library loads the Timestamp and exactly the blocks put in it, in order, with their tracks, times, flags and frames; and from the position of each CuePoint it loads the Cluster of the CuePoint's Block.", "quantifier": "every list of sections, CuePoints, Clusters, blocks and frames, any track encoding of C136, file below 32 GiB", "why_tests_cant": "composition of planning, writing, seeking and loading over unbounded data", "anchors": ["mkclean/mkclean.c:main", "mkclean/mkclean.c:WriteCluster", "libebml2/ebmlmaster.c:ReadData", "libmatroska2/matroskamain.c:MATROSKA_BlockReadData"]}
{"id": "C175", "title": "Reading a decimal or hexadecimal number", "statement": "StringToInt reads blanks, an optional minus sign and digits as the number they spell and never misbehaves on any text; what IntToString prints it reads back.", "quantifier": "every text and every 32-bit number", "why_tests_cant": "all texts, among them numbers of any length", "anchors": ["corec/corec/str/str.c:var_stscanf_s", "corec/corec/helpers/parser/strtypes.c:StringToInt", "corec/corec/helpers/parser/strtypes.c:IntToString"]}
{"id": "C176", "title": "Reading a 64-bit number", "statement": "StringToInt64 reads what Int64ToString prints, for every 64-bit number, in decimal and hexadecimal, and no text is undefined behaviour.", "quantifier": "every text and every 64-bit number", "why_tests_cant": "2^64 numbers, texts of any length", "anchors": ["corec/corec/helpers/parser/strtypes.c:StringToInt64", "corec/corec/helpers/parser/strtypes.c:Int64ToString"]}
{"id": "C177", "title": "mkclean reads its command line as the usage text says", "statement": "Options in any order and case followed by a source and perhaps an output are read as asked for: each switch is on exactly if it is there, of several values the last counts, source and output are the names given; no command line is undefined behaviour.", "quantifier": "every list of options and file names", "why_tests_cant": "unbounded lists of options in all combinations", "anchors": ["mkclean/mkclean.c:main"]}
{"id": "C178", "title": "mkclean's TimestampScale", "statement": "The TimestampScale of the output is the one asked for, else that of the source, doubled until it is at least 100000; the computation ends.", "quantifier": "every 64-bit TimestampScale and every text of the option", "why_tests_cant": "a loop over all 64-bit values, non-termination", "anchors": ["mkclean/mkclean.c:main"]}
{"id": "C179", "title": "mkclean accepts the EBML heads it can handle and writes the version asked for", "statement": "A source is accepted exactly if all values of its EBML head before the Segment are within the limits and its DocType is known; the output has the DocType and version asked for, and mkclean accepts its own output.", "quantifier": "every sequence of elements of the head, every profile", "why_tests_cant": "unbounded sequences of head elements", "anchors": ["mkclean/mkclean.c:CheckMatroskaHead", "mkclean/mkclean.c:main"]}
{"id": "C180", "title": "mkclean without options keeps the elements of the source", "statement": "When no DocType is asked for, an element the source's Matroska version allows is not removed from its master.", "quantifier": "every accepted head and every master element with any children", "why_tests_cant": "all trees of all element types", "anchors": ["mkclean/mkclean.c:ReduceSize", "mkclean/mkclean.c:CheckMatroskaHead", "libebml2/ebmlmaster.c:EBML_MasterCheckContext"]}
{"id": "C181", "title": "mkclean's exit code tells whether the file is complete", "statement": "mkclean ends with exit code 0 exactly if it wrote the complete output.", "quantifier": "every setting and every combination of what is found in the source and of write errors", "why_tests_cant": "all combinations of more than a dozen conditions, among them write errors", "anchors": ["mkclean/mkclean.c:main"]}
{"id": "C182", "title": "mkclean touches no file but its output", "statement": "However mkclean ends, no file other than the output is changed; after an error no output is left; the source and files that may not be written are never destroyed.", "quantifier": "every file system state, source, output and outcome", "why_tests_cant": "all file system states and failures", "anchors": ["mkclean/mkclean.c:main", "corec/corec/helpers/file/file_libc.c:FileErase", "corec/corec/helpers/file/file_libc.c:FileCreate"]}
{"id": "C183", "title": "mkclean keeps the CodecPrivate of every track", "statement": "Whatever the options, the CodecPrivate a player recovers from a track mkclean wrote is the one it recovers from the source track.", "quantifier": "every setting, every track with any content encoding and CodecPrivate, every lossless zlib", "why_tests_cant": "all combinations of options, codecs, scopes, algorithms and private data", "anchors": ["mkclean/mkclean.c:main", "libmatroska2/matroskamain.c:UpdateDataSizeTrackEntry"]}
{"id": "C184", "title": "Without optimisation mkclean keeps the kind of compression", "statement": "Without --optimize and --no-optimize the frames of each track keep their kind of compression; bzlib and LZO become zlib.", "quantifier": "every track with any content encoding and CodecPrivate", "why_tests_cant": "depends on how well arbitrary private data compresses", "anchors": ["mkclean/mkclean.c:main"]}
{"id": "C185", "title": "The compression options of mkclean do what the help says", "statement": "--compalgo 0 forces the compression of the frames of all tracks with zlib; --no-optimize leaves no frames compressed; --optimize compresses the frames of the listed codecs and strips the common header of the others.", "quantifier": "every combination of the options and every track", "why_tests_cant": "all combinations of options, codecs, source encodings and private data", "anchors": ["mkclean/mkclean.c:main"]}
{"id": "C186", "title": "mkclean keeps the encryption of a track", "statement": "A track whose ContentEncoding is not a compression but an encryption still has it in the output.", "quantifier": "every setting and every track", "why_tests_cant": "all combinations of options and tracks", "anchors": ["mkclean/mkclean.c:main"]}
{"id": "C187", "title": "mkclean takes over every section of the source", "statement": "When mkclean writes a file, every readable Chapters, Tags and Attachments element and every readable Cluster of the source gets into it.", "quantifier": "every sequence of level 1 elements, readable or not", "why_tests_cant": "unbounded number and order of sections", "anchors": ["mkclean/mkclean.c:main"]}
{"id": "C188", "title": "mkclean keeps the Segment Info and its duration", "statement": "The Segment Info in the output begins with Duration and TimestampScale, keeps all other elements in order, and its Duration times its TimestampScale is the same as in the source; a live stream has no Duration; cleaning again changes nothing.", "quantifier": "every Segment Info, every TimestampScale of the source and on the command line", "why_tests_cant": "all orders of elements, all values of scale and duration", "anchors": ["mkclean/mkclean.c:main"]}
{"id": "C189", "title": "The names of the applications in a cleaned file", "statement": "The WritingApp of a cleaned file is the name of mkclean, the letters of its options and the names the source had: both, joined with a plus, or one if they are equal up to case, cut to 1023 characters; nothing else gets into it, and a file that is cleaned again in the same way keeps its names.", "quantifier": "for all options, all MuxingApp and WritingApp strings of the source, and any number of cleanings", "why_tests_cant": "Only names that begin with 'mkclean ' and are shorter than 14 characters read outside the text, and how names grow shows only over any number of cleanings.", "anchors": ["mkclean/mkclean.c:main"]}
{"id": "C190", "title": "Timestamps of the Clusters in the output ascend", "statement": "In every file mkclean finishes the Timestamps of the Clusters ascend strictly: a Cluster that is not later than the one before it gets the next tick, all others keep their time.", "quantifier": "for all lists of Clusters and all times in multiples of the TimestampScale", "why_tests_cant": "Any number of Clusters with times in any order and any runs of equal times.", "anchors": ["mkclean/mkclean.c:WriteCluster"]}
{"id": "C191", "title": "Classes of nodes can be registered in any order", "statement": "After a list of class definitions has been registered, in whatever order, looking up an ID gives the class with that definition, or nothing for an unknown ID. A class is initialised exactly when all its ancestors are registered too, and then has its own functions and attributes and, where it defines none, those of the nearest ancestor that does. Registering an ID again changes nothing.", "quantifier": "for all lists of definitions with distinct IDs other than 0 whose tables are large enough, all orders of registration, all IDs", "why_tests_cant": "Any number of classes in any order: parents may come before or after their children, and one registration may set off the initialisation of a whole tree of classes that waited for it.", "anchors": ["corec/corec/node/node.c:NodeRegisterClassEx", "corec/corec/node/node.c:InitClass", "corec/corec/node/node.c:NodeContext_FindClass"]}
{"id": "C192", "title": "Listing the classes of a kind", "statement": "Asking for the classes of a kind gives, each once, exactly the classes derived from it that are not abstract and rated above 0, by falling rating, falling priority and rising ID; asking for the best one gives the first of them; the search always ends.", "quantifier": "for all registries of classes, all kinds and all ratings", "why_tests_cant": "Any number and any shape of class hierarchies and ratings; the search follows parents with no bound.", "anchors": ["corec/corec/node/node.c:NodeEnumClassFilterRated", "corec/corec/node/node.c:NodeClass_IsPartOf"]}
{"id": "C193", "title": "Nodes that refer to each other are kept while they can be reached, and freed once", "statement": "A program creates nodes, takes and gives back references to them, and sets attributes that refer to nodes, both those in the structure of a node and dynamic ones. As long as it uses only nodes it can reach, gives back only what it holds and writes only to nodes it holds, the library never touches a freed node; every node that can be reached from a reference held exists; each node that was created either exists or was freed exactly once; the count of a node is the number of references to it; attributes read back as set and no others change. Unless nodes refer to each other in a circle, a node that can no longer be reached is gone.", "quantifier": "all sequences of creations, references taken and given back, and attributes set, over any number of nodes with any number of attributes, sharing and circles included", "why_tests_cant": "Deletion cascades through graphs of nodes of any shape, with nodes shared between owners; a count wrong by one shows only for some order of the releases, as a use of freed memory or a leak.", "anchors": ["corec/corec/node/node.c:435-483 DataFree", "corec/corec/node/node.c:500-582 Node_RemoveData, Node_AddData, SetData", "corec/corec/node/node.c:632-722 CallDelete", "corec/corec/node/node.c:1397-1434 EraseNode, Node_AddRef, Node_Release", "corec/corec/node/node.c:2284-2297 MetaSet, TYPE_NODE_REF", "libmatroska2/matroskamain.c:2467-2507"]}
{"id": "C194", "title": "The classes of a node are built and taken apart in order and in pairs", "statement": "Creating a node calls the functions for creation of its class and of all classes it derives from, root first. If all succeed the node exists, and deleting it calls the functions for deletion of the same classes, each once, in the opposite order. If one fails, exactly the classes above the failing one, which were built completely, are taken apart, no node exists and nothing else has changed. A module counts one use for each class of each node that exists, so cleaning up gives up exactly the loaded modules that nobody uses.", "quantifier": "all class hierarchies over any modules, all sequences of creations and deletions, any functions failing", "why_tests_cant": "Depth of hierarchies and the place of the failure are unbounded, and a wrong count of uses shows only after many creations, as a module that is unloaded while in use or never.", "anchors": ["corec/corec/node/node.c:403-433 NodeContext_Cleanup, UnlockModules", "corec/corec/node/node.c:632-722 CallDelete", "corec/corec/node/node.c:724-813 LockModules, CallCreate", "corec/corec/node/node.c:1236-1291 NodeCreateFromClass", "corec/corec/node/node.c:1397-1434 EraseNode, Node_Release"]}
{"id": "C195", "title": "Searching finds the first element there is", "statement": "When the next element is looked for from some position, without accepting unknown IDs, the element returned is the first one in the stream: its ID is one the searched level knows, its size is well formed, and no position between the start and the element begins such an element. Damaged bytes of any number in front are passed over.", "quantifier": "all byte streams, all starting positions, all element tables", "why_tests_cant": "The search keeps a window of a few bytes and moves it by different amounts, so an element may be lost only for particular bytes in front of it.", "anchors": ["libebml2/ebmlmain.c:470-666 EBML_FindNextElement"]}
{"id": "C196", "title": "mkparts cuts a file of several documents into exactly these documents", "statement": "Splitting a file of two or more Matroska documents, each with an EBML header and a Segment that tell their sizes, writes one file per document, in their order, each byte by byte the document. A file with one document makes no output and the program says so.", "quantifier": "all numbers of documents, all headers and contents, all lengths of the sizes", "why_tests_cant": "The start of each document is found by searching, so a wrong cut depends on what the bytes of the headers happen to look like, and sizes pass the copy buffer at any remainder.", "anchors": ["mkparts/mkparts.c:124-142 CopyTo", "mkparts/mkparts.c:214-324 main"]}
{"id": "C197", "title": "mkparts ends, whatever the file", "statement": "For every input file the program returns: 0 if it wrote all parts, an error code if it could not.", "quantifier": "all input files, all outputs that can or cannot be opened", "why_tests_cant": "Damaged and cut off files are of endless variety, and closing something twice need not show.", "anchors": ["mkparts/mkparts.c:124-142 CopyTo", "mkparts/mkparts.c:222-279 main", "mkparts/mkparts.c:325-334 exit"]}
{"id": "C198", "title": "mkparts keeps the content of Segments of unknown size", "statement": "A document whose Segment tells no size (a live recording) is written with all its content up to the header of the next document.", "quantifier": "all headers, all contents", "why_tests_cant": "Where such a Segment ends depends on all of its content.", "anchors": ["mkparts/mkparts.c:260-272 main", "libebml2/ebmlelement.c:65-124 EBML_ElementSkipData"]}
{"id": "C199", "title": "Base64 text is the one of RFC 4648 and reads back to the same bytes", "statement": "Encoding any bytes with room for the text and its terminator gives exactly the text RFC 4648 prescribes, with its padding; with less room the encoder reports failure and writes nothing behind the buffer. Decoding the text, whatever follows it from the first padding sign or foreign character on, gives the bytes back, cut to the room of the receiver.", "quantifier": "all byte strings, all buffer sizes, all texts", "why_tests_cant": "The code treats the three lengths modulo three separately and counts down the room at every step; a test covers a few lengths and sizes, the claim covers all pairs.", "anchors": ["corec/corec/helpers/parser/parser2.c:612-708"]}
{"id": "C200", "title": "Simplifying a fraction keeps its value", "statement": "A fraction of two 64-bit numbers becomes one of two ints with a denominator that is not negative. If any pair of ints has the value, the result has exactly that value; otherwise it (or, for sizes above one, its inverse) is off by at most 2^-30.", "quantifier": "all numerators and denominators above the lowest 64-bit number", "why_tests_cant": "The greatest common divisor is searched with at most 128 divisions; that this is always enough and that the halvings afterwards lose only the last bits holds for 2^127 pairs.", "anchors": ["corec/corec/helpers/parser/parser2.c:975-1012"]}
{"id": "C201", "title": "Numbers and fractions in text are read with their value", "statement": "A number in text (optional sign and digits, also hexadecimal behind 0x, also of a fixed count of digits) is read with its value and the text behind it remains; any other text is refused and nothing is consumed. A fraction with a decimal point or comma is read with its value.", "quantifier": "all texts, all digit strings, all lengths, all texts behind them", "why_tests_cant": "The claim ranges over all digit strings and all continuations, including ones that make the accumulated number overflow.", "anchors": ["corec/corec/helpers/parser/parser2.c:764-813", "corec/corec/helpers/parser/parser2.c:840-973"]}
{"id": "C202", "title": "A fraction shown as text is off by less than one unit of the last place", "statement": "The text of a fraction with up to nine decimals, as such or as a percentage, shows a number that is at most half a unit of the last place above the value and less than one unit below it, exact values exactly; the text is cut to the buffer.", "quantifier": "all fractions of ints that are not negative, all numbers of decimals up to nine, all buffer sizes", "why_tests_cant": "Rounding, its cap at the largest int, the split into digits before and behind the point and the padding interact; the bound has to hold for every pair of ints.", "anchors": ["corec/corec/helpers/parser/strtypes.c:43-90"]}
{"id": "C203", "title": "Remuxing drops exactly the tracks without blocks", "statement": "When mkclean remuxes a file, the tracks left are exactly those that have blocks, in their order; all blocks of each are taken, once and in the order of the file; the main track is the first video track left, or the first audio track when there is no video. It stops exactly if no video or audio track has blocks.", "quantifier": "all lists of tracks with number and type, all Clusters with blocks of these tracks", "why_tests_cant": "Which tracks are empty and in which order they are numbered has no bound; the loop deletes from the list it walks and starts again, so that its end and its result need an argument for all files.", "anchors": ["mkclean/mkclean.c:1931-1941", "mkclean/mkclean.c:2297-2395", "mkclean/mkclean.c:699-749"]}
{"id": "C204", "title": "Remuxing a file keeps every frame of every track", "statement": "When mkclean remuxes a file whose tracks have different numbers, whose blocks can be read and are in the order of their timestamps in each track, and whose main track has at least two blocks and a keyframe, the new Clusters hold for every track number exactly the frames of the blocks with that number in the source, each once and in their order, and nothing else.", "quantifier": "all lists of tracks, all Clusters and blocks, all frames", "why_tests_cant": "The numbers of tracks, Clusters, blocks and frames have no bound, and the result joins the collection by track with the dealing out to new Clusters.", "anchors": ["mkclean/mkclean.c:2297-2735"]}
{"id": "C205", "title": "mkvalidator finds everything in its place in mkclean's files", "statement": "If mkclean finishes a file whose sections are in its order, with Info and Tracks among them, whose blocks are readable and whose Clusters are in the order of their timestamps, then the Segment announces exactly the bytes behind its head and holds a SeekHead, a Void, the sections, the Cues if there are any and the Clusters; mkvalidator, seeing these elements as they are written, prints no message about an element that is missing, double, misplaced or unknown, about a wrong, missing or unknown entry of the SeekHead, about a wrong PrevSize or Position or about the size of the Segment.", "quantifier": "all headers, sections, Cues and Clusters of any size and number, with and without --unsafe; all options of mkvalidator but --live", "why_tests_cant": "It joins two programs: every layout mkclean can choose, with its guesses of the size of SeekHead and Cues, has to agree with every comparison mkvalidator makes; the sizes and numbers have no bound.", "anchors": ["mkclean/mkclean.c:2737-3082", "mkvalidator/mkvalidator.c:449-566", "mkvalidator/mkvalidator.c:706-731", "mkvalidator/mkvalidator.c:1040-1345"]}
{"id": "C206", "title": "mkvalidator accepts the Cues mkclean makes", "statement": "If mkclean makes new Cues for Clusters whose keyframes are at whole ticks of the TimestampScale, for a main track with a number below 32768, mkvalidator prints no message about them: no CuePoint is earlier than the one before and each finds its block.", "quantifier": "all lists of Clusters with blocks and groups of any number, all times below 2^63-1 ns, all positive TimestampScales", "why_tests_cant": "The choice of the blocks depends on all Clusters before (800 ms apart), and the two programs convert the times independently; the number of Clusters has no bound.", "anchors": ["mkclean/mkclean.c:751-833", "libmatroska2/matroskamain.c:858-926", "mkvalidator/mkvalidator.c:814-853"]}
{"id": "C207", "title": "Layout of a live file", "statement": "With --live, mkclean writes the EBML head, the head of a Segment of unknown size, 134 bytes of filler, the Segment Info and the Tracks, and one Cluster for every Cluster in order, each with its timestamp and all its readable blocks; the Clusters are of unknown size and all but the first have a PrevSize, with --unsafe they tell their sizes and have none.", "quantifier": "all sections, all lists of Clusters and blocks, with and without --unsafe", "why_tests_cant": "all lists of Clusters, blocks, times and checksums", "anchors": ["mkclean/mkclean.c:304-335 SetClusterPrevSize", "mkclean/mkclean.c:2012-2030 main", "mkclean/mkclean.c:2196-2200 main", "mkclean/mkclean.c:3043-3121 main", "mkclean/mkclean.c:657-676 WriteCluster"]}
{"id": "C208", "title": "PrevSize in live files", "statement": "In a live file every Cluster but the first tells the number of bytes of the Cluster before it.", "quantifier": "all lists of Clusters and blocks", "why_tests_cant": "The size is fixed before anything is written and depends on all the sizes before; it goes wrong only for certain timestamps and damaged blocks.", "anchors": ["mkclean/mkclean.c:304-335 SetClusterPrevSize", "mkclean/mkclean.c:657-676 WriteCluster", "libebml2/ebmlelement.c:120-125 EBML_ElementFullSize"]}
{"id": "C209", "title": "The filler of a live file hides nothing", "statement": "Bytes below 16 in front of an element with an ID of four bytes do not keep a reader from finding that element at its place; so a reader at the start of a live Segment finds the first section behind the filler.", "quantifier": "any amount of such bytes, any element and content behind it, every schema and stack of contexts that are not over, with and without unknown elements", "why_tests_cant": "all amounts of filler and all elements", "anchors": ["libebml2/ebmlmain.c:470-665 EBML_FindNextElement", "mkclean/mkclean.c:1483-1488 WriteJunk", "mkclean/mkclean.c:2196-2200 main"]}
{"id": "C210", "title": "Remuxing interleaves the tracks by time", "statement": "mkclean --remux cuts the main track exactly at the chosen keyframe times: Cluster k holds its blocks from boundary k up to, and without, boundary k+1. Before each block of the main track stand, of every other track, exactly the blocks that start not later than the following block of the main track. A laced block of another track is put in a Cluster whole, or exactly with those of its remaining frames that end before the following Cluster starts.", "quantifier": "all numbers of tracks, blocks and Clusters, all timestamps in order, all keyframe patterns; for laces all tracks and all ways Clusters may refuse blocks", "why_tests_cant": "the order depends on the relation of all timestamps of all tracks; tests sample a few files", "anchors": ["mkclean/mkclean.c:2458-2733"]}
{"id": "C211", "title": "Converted text stays in its buffer", "statement": "Converting a text between character sets (as built on Linux, with iconv) into a buffer of n bytes writes at most n bytes and leaves a terminated text: the converted text if it fits, otherwise the beginning of the text. (Violated: the terminator is converted with the text and another one is written behind it, so a text whose conversion with terminator has exactly n bytes makes a write one unit behind the buffer; and a text too long for the buffer is put there unconverted.)", "quantifier": "all converters, all texts, all buffer sizes", "why_tests_cant": "the overrun needs a text of one exact length and a locale that needs a conversion; in a UTF-8 locale nothing is converted at all", "anchors": ["corec/corec/helpers/charconvert/charconvert_linux.c:29-75", "corec/corec/helpers/charconvert/charconvert_linux.c:99-119"]}
{"id": "C212", "title": "The text of a text element is stored and found again", "statement": "A text set on a Unicode text element is written as its UTF-8 bytes behind a head telling their number, and an element read from these bytes gives the same text; a plain text element gives its bytes unconverted in every locale. (Violated for texts of more than 2046 bytes: they are cut there without notice, also inside a character.)", "quantifier": "all texts, all locales whose character set can express the text, all buffers with room for it", "why_tests_cant": "all lengths around the internal buffer size and all locales; the cut inside a character depends on the position of every character", "anchors": ["libebml2/ebmlstring.c:12-50", "libebml2/ebmlstring.c:96-117", "corec/corec/helpers/parser/parser2.c:27-90"]}
{"id": "C213", "title": "Wide texts are converted whole", "statement": "Converting a text of UTF-16 or wide characters to bytes converts the whole text. (Violated: the converter is told the number of characters as the number of bytes. An ASCII text whose length plus one is a multiple of the size of a unit arrives with its first half (UTF-16) or quarter (wide characters) only; others arrive because the converter refuses them.)", "quantifier": "all ASCII texts of any length, all converters that know ASCII and refuse half a character, all sufficient buffers", "why_tests_cant": "whether a text arrives depends on its length modulo the unit size; tests sample a few", "anchors": ["corec/corec/helpers/charconvert/charconvert_linux.c:77-97", "corec/corec/helpers/charconvert/charconvert_linux.c:121-141"]}
{"id": "C214", "title": "Merging the fields of a 3D track keeps them", "statement": "With --alt-3d the blocks of the track, one field each, are put together two by two, and the file written has both fields in every block. (Violated: a merged block is released and keeps automatic lacing, so reading it again fails and mkclean deletes it, and of a track of any number of fields only the last one of an odd number is left; when the sizes were computed before, the merged block is read again in one piece and the second frame is what the source file has behind the first, not the second field; a Block in a BlockGroup makes mkclean use a frame that was never set.)", "quantifier": "all source files, all numbers of blocks, all sizes and places of the fields, both orders of sizing and reading", "why_tests_cant": "needs the combination of merging, releasing, sizing and reading again over arbitrary files; a test of merging alone finds the frames where they belong", "anchors": ["mkclean/mkclean.c:2649-2697", "mkclean/mkclean.c:245-279", "libmatroska2/matroskamain.c:1593-1604", "libmatroska2/matroskamain.c:1342-1345"]}
{"id": "C215", "title": "Tracks marked by --alt-3d", "statement": "When tracks are remuxed, exactly those given with --alt-3d are treated as 3D tracks and every other track of the file is treated as usual. (Violated: the mark is looked up by track number without a check against the number of marks, so a track with a higher number than all the marked ones reads behind them.)", "quantifier": "all lists of options, all track numbers", "why_tests_cant": "what is behind the marks is often zero, so a test passes by luck", "anchors": ["mkclean/mkclean.c:1606-1622", "mkclean/mkclean.c:2506-2507", "mkclean/mkclean.c:2653"]}
{"id": "C216", "title": "Values of XML attributes can be read back", "statement": "A text written as an attribute by the XML writer is terminated by its quote, contains no markup, and an XML parser reads the same text back, whatever characters it has. (Violated for long texts: a line longer than 1023 characters loses its quote, and a text cut at the end of the buffer ends in the middle of an entity; shorter texts are read back.)", "quantifier": "all names, all texts, all buffer sizes", "why_tests_cant": "the special characters can stand anywhere in a text of any length; the loss needs exactly long texts", "anchors": ["corec/corec/helpers/parser/parser2.c:443-501"]}
{"id": "C217", "title": "Written XML documents have the structure of the calls", "statement": "A document written with the XML writer (beginning elements, attributes, ending elements with or without text, in both formats for empty elements) is read by an XML parser as the same tree of elements, with the same attributes and texts. (Violated: the text of an element is not escaped, so a text with & makes the document unreadable and a text with markup becomes elements.)", "quantifier": "all trees of elements of any width and depth whose lines fit in 1023 characters, both formats", "why_tests_cant": "the writer decides what to write by what was written to parents before; only induction over the tree covers all of them", "anchors": ["corec/corec/helpers/parser/parser2.c:503-549", "corec/corec/helpers/parser/parser2.c:564-574"]}
{"id": "C218", "title": "A double as a fraction has its value", "statement": "Converting the bits of a double into a fraction of two 32-bit numbers gives exactly its value when there is such a fraction, and otherwise one that is off (or whose inverse is off) by at most 2^-30. (Violated: the sign is taken for a part of the exponent, so every negative number is undefined, as is every number below 2^-10 or from 2^53 on.)", "quantifier": "all doubles", "why_tests_cant": "2^64 values with different exponents and mantissas; the shifts that are undefined often give the expected value on one machine", "anchors": ["corec/corec/helpers/parser/parser2.c:1014-1028"]}
{"id": "C219", "title": "Keyframe and discardable flags are those set", "statement": "After any calls that set the keyframe and discardable flags of a block, asking for them gives the values set last, and the block read from what is written of it has them too. (Violated for a Block in a BlockGroup: without a ReferenceBlock it is a keyframe whatever was set, and with one the keyframe flag that was set is lost in the file; SimpleBlocks keep both flags.)", "quantifier": "all blocks, all sequences of calls", "why_tests_cant": "depends on the kind of block, the sequence of calls and the way through the file; sequences are unbounded", "anchors": ["libmatroska2/matroskamain.c:740-777", "libmatroska2/matroskamain.c:1452-1458", "libmatroska2/matroskamain.c:1755-1766"]}
{"id": "C220", "title": "A file stream closes what it opened and nothing else", "statement": "Whatever files and directories are opened, reopened and listed with one stream, whether the system grants them or not: only handles the stream opened are closed, each of them once, and when the stream is deleted the process has exactly the handles it had before.", "quantifier": "all sequences of opening and listing calls, all answers of the system", "why_tests_cant": "Leaks and double closes depend on the order of calls and on failures of the system.", "anchors": ["corec/corec/helpers/file/file_libc.c:53-92", "corec/corec/helpers/file/file_libc.c:157-177", "corec/corec/helpers/file/file_libc.c:221-240"]}
{"id": "C221", "title": "A file stream reads, writes, seeks and skips as documented", "statement": "Reading delivers the bytes at the position and reports the end exactly when fewer are left than asked for; writing changes exactly the bytes written and fills gaps with zeros; the number reported is the number transferred and success means all of them; what was written is read back; skipping moves by the number asked for or to the end; the length reported is the length of the file.", "quantifier": "all file contents, positions, sizes and answers of the system", "why_tests_cant": "Short reads and writes, gaps, and skips over several buffers.", "anchors": ["corec/corec/helpers/file/file_libc.c:61-155", "corec/corec/helpers/file/streams.c:12-25"]}
{"id": "C222", "title": "Listing a directory gives its visible entries", "statement": "Asking for entries until there are no more gives every visible entry once, in the order of the system: directories always, files with size, date and the type of their extension, and with the filter only files whose extension is in the list.", "quantifier": "all directories, paths, lists of extensions", "why_tests_cant": "Order and combination of hidden files, filtered files and directories; long paths and links.", "anchors": ["corec/corec/helpers/file/file_libc.c:157-229", "corec/corec/helpers/file/tools.c:351-371"]}
{"id": "C223", "title": "Dates are those of the calendar", "statement": "The date shown for a moment of the system is the one of the calendar for this moment; dates are in the order of the moments.", "quantifier": "all moments, any calendar", "why_tests_cant": "One second in all is special.", "anchors": ["corec/corec/helpers/date/date_libc.c:22-60"]}
{"id": "C224", "title": "mkclean keeps the times of blocks", "statement": "A block has the same time in the output of mkclean as in its input, up to one tick of the output's TimestampScale, whether the Clusters are made anew (--remux), kept while Cues are generated, or kept together with the Cues. A block that cannot be stored makes mkclean stop with an error. The pieces of a laced block split by --remux have the times of their first frames.", "quantifier": "all scales below 2^38, all Cluster and local times, all starts of new Clusters, all ways through mkclean", "why_tests_cant": "The times go wrong by roundings of two numbers, by a scale that is changed silently for small ticks, and by local times beyond 16 bits; tests use the scale 1 ms, which is never changed.", "anchors": ["mkclean/mkclean.c:1866-1878", "mkclean/mkclean.c:2206-2240", "mkclean/mkclean.c:2460-2730", "libmatroska2/matroskamain.c:106-142", "libmatroska2/matroskamain.c:633-731", "libmatroska2/matroskamain.c:1362-1395", "libmatroska2/matroskamain.c:1593-1604"]}
{"id": "C225", "title": "mkclean keeps the durations of BlockGroups", "statement": "A BlockGroup, such as a subtitle, lasts as long in the output of mkclean as in its input, up to one tick of the output's TimestampScale.", "quantifier": "all scales, all durations, with and without --timecodescale", "why_tests_cant": "Durations change only if the scale does, which tests with 1 ms ticks never see.", "anchors": ["mkclean/mkclean.c:1866-1878", "mkclean/mkclean.c:2206-2240", "mkclean/mkclean.c:2460-2730"]}
{"id": "C226", "title": "Live recordings are loaded with all of their Clusters", "statement": "A Segment of unknown size whose Clusters are all of unknown size, as live recorders and mkclean --live write it, is loaded by EBML_ElementReadData with every Cluster it has, in order.", "quantifier": "all schemas in which the Cluster's ID ends a Cluster, all numbers of Clusters, all contents, any stream before the Segment", "why_tests_cant": "Test files with one Cluster, or with sizes, load completely; what is lost depends on the number of Clusters and on the bytes in them.", "anchors": ["libebml2/ebmlmaster.c:271-421", "libebml2/ebmlelement.c:93-108", "libebml2/ebmlmain.c:EBML_FindNextElement"]}
{"id": "C227", "title": "mkclean and mkvalidator see every Cluster of a live recording", "statement": "When a recording whose Segment has unknown size contains Clusters of unknown size one after the other, possibly with other sections before, between and behind them, mkclean and mkvalidator find every one of these Clusters, in order and with its complete content, and every section of known size they look for.", "quantifier": "all numbers of Clusters and sections, all contents, all lengths of size fields, with and without --live, --keep-cues and --remux", "why_tests_cant": "The loader of the library loses every other such Cluster (C226) because the search for the next element is done twice; that the programs' own loops do not depends on which of two results they go on with, for every number of Clusters and every order of sections.", "anchors": ["mkclean/mkclean.c:1791", "mkvalidator/mkvalidator.c:1040", "libebml2/ebmlelement.c:93", "libebml2/ebmlmaster.c:271"]}
{"id": "C228", "title": "Damage under a checksum is reported", "statement": "When an element that starts with a CRC-32 is loaded with checksum verification, EBML_MasterIsChecksumValid says no if the stored checksum is not the CRC-32 of the bytes behind it, and yes otherwise; so every burst of damage of up to 32 bits within the element, even one that changes how its content is parsed, and every change of the stored checksum, leaves the element either unloaded or reported as invalid.", "quantifier": "all schemas, all contents that are parseable or not, all bursts of up to 32 bits, all sizes, memory and file streams, unknown elements allowed or not", "why_tests_cant": "Damage to an ID or a size makes the parser go another way through the element; a test damages a few places, the claim is about each bit of each content.", "anchors": ["libebml2/ebmlmaster.c:271", "libebml2/ebmlmaster.c:403", "libebml2/ebmlmaster.c:423", "libebml2/ebmlmaster.c:440", "libebml2/ebmlcrc.c:141"]}
{"id": "C229", "title": "An element of unknown size can be given its size", "statement": "EBML_ElementInfiniteForceSize gives an element of unknown size the size passed if it fits in the bytes reserved for it, so that the head can be written again over the old one; otherwise it refuses.", "quantifier": "all IDs, all reserved lengths, all sizes", "why_tests_cant": "The result is success in all cases; only the bytes written later show whether the size is in the file, for each length of the field and each size.", "anchors": ["libebml2/ebmlelement.c:184", "libebml2/ebmlelement.c:111"]}
{"id": "C230", "title": "The text of an ID is the ID", "statement": "EBML_IdToString gives the bytes of an ID as they are in a file, in order, each as two hexadecimal digits in brackets, so that different IDs have different texts; it returns the length of the text and writes nothing if the text and its end do not fit.", "quantifier": "all 32 bit IDs, all buffer sizes", "why_tests_cant": "Leading zero bytes are left out and inner ones must not be; there are 2^32 IDs.", "anchors": ["libebml2/ebmlelement.c:228"]}
{"id": "C231", "title": "Everything in a Segment of known size is seen, and nothing behind it", "statement": "mkclean and mkvalidator find every section they look for in a Segment of known size, in order and complete, pass over elements with unknown IDs, and never take anything behind the end of the Segment for a part of it; this also holds if Clusters in it have unknown sizes.", "quantifier": "all numbers and orders of sections, all contents, all lengths of size fields, all bytes behind the Segment, with and without --live, --keep-cues and --remux", "why_tests_cant": "The end of the Segment is met by several nested loops with their own idea of where they end; what happens there depends on the type and size of the last section, and on the bytes behind.", "anchors": ["mkclean/mkclean.c:1791", "mkvalidator/mkvalidator.c:1040", "libebml2/ebmlmain.c:493", "libebml2/ebmlmaster.c:414"]}
{"id": "C232", "title": "A name opens the file it names", "statement": "Opening a stream by a name opens the file the system has under that name, and no other; if there is none, or no name, nothing is opened and the name is reported.", "quantifier": "all names, all states of the file system, all flags", "why_tests_cant": "Names with a colon, slashes and spaces in every place are infinitely many; a test tries a few plain paths.", "anchors": ["corec/corec/helpers/file/streams.c:199-259", "corec/corec/helpers/file/file_libc.c:53-92", "corec/corec/helpers/file/tools.c:42-75"]}
{"id": "C233", "title": "mkvalidator and mkparts do what their command lines ask for", "statement": "Each option counts wherever it is given, in any order and case; the one argument that is no option is the file that is read; arguments that mean nothing are reported; the texts of --help and --version are shown with their exit codes.", "quantifier": "all command lines", "why_tests_cant": "The orders and spellings of options are unbounded.", "anchors": ["mkvalidator/mkvalidator.c:898-946", "mkparts/mkparts.c:174-213"]}
{"id": "C234", "title": "mkvtree lists the elements of a file", "statement": "mkvtree prints, for every conformant Matroska file, one line for each element in the order of the file, with the position of the element, indented by its depth.", "quantifier": "all conformant files, of any size and depth", "why_tests_cant": "A test runs it on a few files; the claim is about every nesting, and the loops hand the element that follows from call to call through any number of levels.", "anchors": ["libmatroska2/test/mkvtree.c:87-255", "libebml2/ebmlmain.c:470-665"]}
{"id": "C235", "title": "An attribute of a node reads as it was set", "statement": "What an attribute of an object (a stream, an element, a setting) is set to is what it reads as afterwards, whether it is kept in the object or among its optional values; NULL resets it to zero or the empty text; setting one attribute leaves all others as they read; and setting an attribute that compares to the value it has changes and announces nothing, while a different value is announced.", "quantifier": "every attribute of a fixed size, text, fraction or flag, every place in every object, every value, buffer and earlier state", "why_tests_cant": "The outcome depends on the type, the place, the flags of the attribute and the bytes around it in all combinations; tests set a few attributes once and read them at once.", "anchors": ["corec/corec/node/node.c:1909-2008", "corec/corec/node/node.c:2041-2334"]}
{"id": "C236", "title": "Searching a tree of nodes finds what is there", "statement": "Searching a tree of nodes by name finds a node of the class and the name (letters of either case) below the start, at any depth when the search is recursive and among the children otherwise, exactly when there is one, the first child before anything deeper; searching by class finds the start itself or a node below it exactly when there is one; the search for names in scope finds exactly the names with no named node in between; and a child created under a name no other child has is found under it.", "quantifier": "every tree of any shape and depth, every class test, every name", "why_tests_cant": "The recursive searches visit trees of unbounded depth and width; completeness (nothing there is missed) is a claim over every tree.", "anchors": ["corec/corec/node/nodetree.c:86-108", "corec/corec/node/nodetree.c:110-120", "corec/corec/node/nodetree.c:122-133", "corec/corec/node/nodetree.c:135-151"]}
{"id": "C237", "title": "A copy of a node reads as the original", "statement": "Copying the attributes of an object onto another one of the same class makes every attribute that is saved (neither read-only nor marked as not saved) read in the copy as in the original, with pointers to objects that were copied as well replaced by their copies; the other attributes of the copy, and everything beside them, read as before; an object of another class is left as it is; and nothing is written out of bounds.", "quantifier": "every class with any number of attributes that do not share memory, every original and copy, every table of copies, every content of the buffer used", "why_tests_cant": "The claim is about any class with any attributes in any order and any contents; interference between attributes (through the common buffer, the structure or the list of values) only shows for particular combinations.", "anchors": ["corec/corec/node/node.c:2724-2737", "corec/corec/node/node.c:2739-2777", "corec/corec/node/node.c:2779-2801"]}
{"id": "C238", "title": "Parameters are taken from a text as they were written", "statement": "The functions that take apart a text take a name up to the next blank or delimiter, cut to the room given, and stand behind the whole name; a symbol is taken exactly when it is the next character that is not blank; skipping behind a character stands behind its first occurrence or at the end; trimming removes exactly the blanks at the end; and a list of parameters of any length with any blanks around them, separated by commas and ended by a parenthesis, is read as it was written.", "quantifier": "every text, every set of delimiters, every room, lists of any length", "why_tests_cant": "Texts and lists have any length and any mixture of blanks, empty names and delimiters.", "anchors": ["corec/corec/helpers/parser/parser2.c:576-610", "corec/corec/helpers/parser/parser2.c:707-762"]}
{"id": "C239", "title": "Inverting a flag of an object twice restores it", "statement": "Inverting a flag of an object makes it read as its opposite (as 1 or 0, whatever number other than 0 it held), leaves every other attribute as it reads, also other bits of the same number, and inverting it again makes it read as at first.", "quantifier": "every flag kept as a number in the object, as a bit of a number or among the optional values, every object, every reader's buffer", "why_tests_cant": "The flag shares memory with any other flags in any state; the claim is about every object, place and mask.", "anchors": ["corec/corec/node/node.c:2716-2722"]}
{"id": "C240", "title": "Counting, taking out, deleting and sorting the children of a master", "statement": "After any sequence of well formed calls on a tree of elements: the count of a master is the number of its children. Taking out the children leaves the master empty and every former child alive and without parent. Deleting the children frees exactly the elements below the master, if nobody else holds references to them. Sorting leaves the master with exactly the same children, in the order of the comparison. None of these changes the parent, the references or the children of an element not concerned, and all of them end.", "quantifier": "for all histories of calls on trees of any size and shape, all masters in them and all comparison functions", "why_tests_cant": "The loops re-read the first child after each change of the list, so that their end and effect depend on all pointers being consistent after every history; tests cover a few shapes.", "anchors": ["libebml2/ebmlmaster.c:97-104", "libebml2/ebmlmaster.c:115-152", "corec/corec/node/nodetree.c:29-35"]}
{"id": "C241", "title": "mkclean reads the blocks of a cluster and releases them without a trace", "statement": "When mkclean prepares a cluster for writing, every SimpleBlock and every BlockGroup's Block whose frames can be read from the source holds exactly these frames, and nothing is removed. A block that can not be read, and the whole group it is in, is removed wherever it is, without any effect on the other children, and the cues are then known to need an update. Releasing the frames afterwards gives back the cluster exactly as it was before reading, so that it can be read again.", "quantifier": "for all clusters with any number and mix of blocks, groups and other elements, all encodings of tracks, and all files", "why_tests_cant": "Reading replaces the lace sizes of each block and releasing has to restore them for every encoding, while children are deleted from the list being walked; tests have a few files with one kind of damage.", "anchors": ["mkclean/mkclean.c:245-302", "libmatroska2/matroskamain.c:975-991", "libmatroska2/matroskamain.c:1014-1360"]}
{"id": "C242", "title": "The name an attribute is written under finds the attribute again", "statement": "When the attributes of a node are written as text, each gets a name: the one its class or an ancestor declares, else its four-character code, else the name the node reports, else _ and its number in hexadecimal. Looking this name up in the same class gives the attribute and its type again: for every attribute that gets a number, for every declared name that fits the buffer, does not look like such a number and belongs to no other attribute in any mixture of cases, and for every code without zero bytes, not all underscores, that does not look like a number and is no declared name. It fails outside: the lookup ignores case and takes the first, so of two names that differ in case only one can be found; a name or code such as _BAD is taken for a number; a cut name and a name only the node reports are not found.", "quantifier": "For all classes and chains of ancestors with any tables of attributes, all attributes with a type, all names and all sizes of buffers", "why_tests_cant": "Tests write and read the attributes of the classes at hand; whether a lookup inverts the naming depends on all other names in the chain, on the numbers and on what the names look like.", "anchors": ["corec/corec/helpers/parser/parser2.c:1030-1063", "corec/corec/node/node.c:1553-1570", "corec/corec/node/node.c:2545-2561", "corec/corec/node/node.c:2704-2714"]}
{"id": "C243", "title": "The list of the attributes of a node holds each of its attributes once", "statement": "Listing the attributes of a node gives an attribute with a type exactly if this is the type declared nearest to the class of the node, going up through its ancestors, and is not 0. They come in the order of their declarations, those of the oldest ancestor first. An attribute declared once is listed once; this fails for an attribute whose type a class declares anew, which is listed at both places, both times with the new type.", "quantifier": "all chains of classes with any tables of attributes", "why_tests_cant": "Depends on how the tables of all ancestors overlap, which new classes change.", "anchors": ["corec/corec/node/node.c:2010-2034", "corec/corec/node/node.c:2685-2702"]}
{"id": "C244", "title": "Times are written as hours, minutes, seconds and milliseconds", "statement": "The text of a time span is its hours, minutes, seconds and milliseconds, with two digits for minutes and seconds behind a larger unit, three for the milliseconds, the larger units left out while they are 0, and a minus in front of negative spans; in a small buffer its beginning. Read as a clock it gives the time span again, so different spans have different texts. It fails for the lowest number, whose negation overflows.", "quantifier": "all time spans, all sizes of buffers", "why_tests_cant": "2^32 spans, with the carries of all units, and all buffers.", "anchors": ["corec/corec/helpers/parser/strtypes.c:132-160"]}
{"id": "C245", "title": "Memory is freed from the mildest level on, and no further than needed", "statement": "When memory runs short the registered functions are called in rounds: all of them, in the order of registration, first at level 0, then at the least higher level any of them answered in the round before. The rounds end with the first in which a function freed something, so none is asked at a higher level after that, or when none asks for a higher level; then unused modules are cleaned up. The result tells whether anything was freed. This always ends, whatever the functions answer, and a call from within one of the functions does nothing.", "quantifier": "all numbers of registered functions, all functions with any state and answers, all results of the cleanup", "why_tests_cant": "The functions belong to plugins and answer depending on a shared state; that the loop ends and skips no level cannot be sampled.", "anchors": ["corec/corec/node/node.c:2857-2892"]}
{"id": "C246", "title": "The probe for the first element finds exactly the heads of elements", "statement": "A stream that starts with a complete ID (one to four bytes, as its first byte says) and a complete size field (one to eight bytes, likewise) is read as that ID and size, with the position behind them. Whatever is found starts with a complete ID. It fails for the size: a stream that ends within the size field is accepted, with size 0 and a length one larger than what was read.", "quantifier": "all byte streams", "why_tests_cant": "All first bytes, lengths and cuts of the stream; tests use well-formed heads.", "anchors": ["libebml2/ebmlmain.c:301-377", "libebml2/ebmlmain.c:108-147"]}
{"id": "C247", "title": "The lookup tables of classes are freed exactly once", "statement": "Classes are registered, initialised (or refused by their own function) and unregistered with their module, in any order. A class either shares a lookup table with its parent or owns one. At every time each table a class has is allocated, each allocated table has exactly one owner, and nothing is freed twice. Unregistering a module takes exactly its classes and all derived from them, and the other classes keep their tables. When all modules are unregistered nothing is allocated any more. It fails for plugins with a class derived from the one for modules: it keeps its tables, and a null pointer is read when the program ends.", "quantifier": "all hierarchies of classes, all assignments of classes to modules, all sequences of operations, all allocators including failing ones", "why_tests_cant": "Whether a table is shared depends on the attributes of all ancestors, and the order in which modules go is open; a double free shows only for some of the combinations.", "anchors": ["corec/corec/node/node.c:374-401", "corec/corec/node/node.c:907-958", "corec/corec/node/node.c:1070-1136", "corec/corec/node/node.c:1138-1224"]}
{"id": "C248", "title": "There is one singleton for each class, and it lives as long as someone has it", "statement": "However nodes are created and given back and modules unregistered: there is at most one singleton for each class ID, it is found by this ID and nothing else is, creating a node of its class gives this singleton, and a new one is found from then on. Every singleton and everything the program holds is in memory, and nothing else is. Unregistering a module ends, takes exactly its singletons and releases each once, so those the program does not hold are freed. It fails when there is no memory for the place of a singleton in the array: then its node stays in memory, and nobody has it.", "quantifier": "all sequences of creations, releases and unregistrations, with any failures of memory, modules and creation functions", "why_tests_cant": "Reference counts depend on the whole history, and the places where creation fails multiply with it.", "anchors": ["corec/corec/node/node.c:374-389", "corec/corec/node/node.c:854-857", "corec/corec/node/node.c:1236-1291", "corec/corec/node/node.c:1411-1434", "corec/corec/node/node.c:1485-1499"]}
{"id": "C249", "title": "A class is found whichever module provides it", "statement": "Looking up a class by its ID gives a registered class with this ID exactly if some module has one, also when other modules provide classes with the same ID that failed, and whatever was looked up, registered or failed before. A second lookup gives the same class. A lookup that prefers a module gives the class of that module if it is registered. No lookup reads outside of the array of classes or from a class that was moved in memory.", "quantifier": "all histories of registrations (with classes moved in memory), failures and lookups, where no lookup is made from within a registration; all IDs and modules", "why_tests_cant": "The answer depends on a binary search among several classes with the same ID and on a cache that all earlier calls have set.", "anchors": ["corec/corec/node/node.c:160-182", "corec/corec/node/node.c:228-300", "corec/corec/node/node.c:961-979", "corec/corec/node/node.c:1293-1355"]}
{"id": "C250", "title": "Data rates are shown in kbit/s or rounded Mbit/s", "statement": "For every data rate in bytes per second that an int can hold, the text written is the rate in kbit/s (rounded towards zero) followed by \" kbit/s\" when it is below 1000, and otherwise the rate in Mbit/s with exactly two decimals, rounded to the nearest hundredth, followed by \" Mbit/s\". No intermediate value overflows, and in a buffer that is too small the text is the beginning of that text, closed by a zero.", "quantifier": "all rates from -2^31 to 2^31-1, all buffer sizes from 1 to 2^64-1", "why_tests_cant": "There are 2^32 rates times all buffer sizes; overflow of the product, rounding at the border to Mbit/s and truncation inside the unit occur at isolated values.", "anchors": ["corec/corec/helpers/parser/strtypes.c:162-178", "corec/corec/helper.h:47-57"]}
{"id": "C251", "title": "Names of data types and units are found in any case and lead back", "statement": "Looking up a data type by its name, in any case of its ASCII letters, gives the documented number of the type; with the name of a unit it gives the number of the type and the documented constant of the unit. A unit that is not known is ignored, a type that is not known gives 0. The names that are reported for a data type are found again and give the same type and unit. Neither lookups nor asking for a name read outside of the tables.", "quantifier": "all strings as names of types and units, all numbers as data types", "why_tests_cant": "All strings are possible names, and the bound of the loop over the units follows from a mask, not from the table; reading behind a table shows only for numbers nobody uses yet.", "anchors": ["corec/corec/node/node.c:64-131", "corec/corec/node/node.c:1876-1907", "corec/corec/node/nodebase.h:19-62", "corec/corec/node/nodebase.h:82-101"]}
{"id": "C252", "title": "GUIDs and colours are written as usual", "statement": "A GUID is written as its 32 hexadecimal digits in groups of 8, 4, 4, 4 and 12, with zeros in front, in a buffer that is too small as the beginning of that text; different GUIDs have different texts. A colour is written as # with two digits each for red, green and blue, followed by two digits for alpha when it is not 0.", "quantifier": "all GUIDs, all colours of four bytes, all buffer sizes (colours: with room for the text)", "why_tests_cant": "There are 2^128 GUIDs and 2^32 colours; leading zeros, digits of alpha and the sign of the first field matter at isolated values.", "anchors": ["corec/corec/helpers/parser/strtypes.c:36-41", "corec/corec/helpers/parser/strtypes.c:125-130", "corec/corec/helper.h:10-11", "corec/corec/portab.h:163-171"]}
{"id": "C253", "title": "Colours that were written are read back", "statement": "The text of a colour, # with two hexadecimal digits in either case for red, green and blue and two for alpha when it is not 0, is read as this colour, whatever stands behind it that is no such digit. Fewer than six digits are the lowest digits of red, green and blue. Writing a colour and reading the text gives the colour back. Reading never overflows.", "quantifier": "all colours of four bytes, all texts, all texts behind", "why_tests_cant": "There are 2^32 colours and endless texts; whether alpha was written depends on the number of digits only.", "anchors": ["corec/corec/helpers/parser/parser2.c:764-793", "corec/corec/helpers/parser/parser2.c:815-824", "corec/corec/helpers/parser/strtypes.c:125-130"]}
{"id": "C254", "title": "Four-character codes in expressions are read, and nothing else is", "statement": "In an expression a text of up to four characters between @' and ' is read as the code with these characters, filled with underscores (0 for none), and reading goes on behind the second quote. Nothing else is taken as a code: not a longer text, not one without the closing quote. A code without NUL and quotes, other than ____, that was written as text is read back.", "quantifier": "all texts, all codes, all buffer sizes of at least five for the text", "why_tests_cant": "Acceptance is a property of all texts; the length limit counts the quotes and the terminator decides about reading on.", "anchors": ["corec/corec/helpers/parser/parser2.c:576-589", "corec/corec/helpers/parser/parser2.c:826-838", "corec/corec/helpers/parser/strtypes.c:15-34"]}
