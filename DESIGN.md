# Formal model of foundation-source: design

The model is written in Lean 4 (`lean/Verif`). The C sources are in `/repo` and are
neither built nor run: the tie between model and code is the citation on every
definition (`file:lines`), re-read against the text.

## Layout

* `Verif/Base/*` - bytes, big-endian integers and other arithmetic shared by the models.
* `Verif/Ebml/*`, `Verif/Mkv/*`, `Verif/Core/*` - libebml2, libmatroska2 and its tools, corec:
  the model files hold the code function by function, each definition citing its source;
  files named `*Spec` hold small, independent statements of what the user expects (only where the
  statement is not already plain arithmetic/list vocabulary); files named `*Lemmas` and the like
  hold helper lemmas.
* `Verif/Props/*.lean` - the property theorems (names start with the property id) and,
  beside each, an `example` that meets its hypotheses.

Where the code violates a property, the negation is proved with a concrete witness
(`Cnn_..._counterexample`), and the strongest guarded version is proved as
`Cnn_..._partial`.

## Modelling conventions

* A byte is `UInt8`; buffers and streams are `List UInt8`. File positions and sizes
  (`filepos_t`, 64-bit signed) are `Int`/`Nat` unless wrap-around is the point.
* Pointers into buffers become list suffixes or indices; writes outside a buffer and
  reads outside a buffer are explicit outcomes in the models whose property is about them.
* A loop becomes structural recursion, or recursion on a fuel argument that is proved
  sufficient (a fuel-out outcome is distinct from every real outcome).
* Failing `malloc` is a parameter where the property speaks about failure, otherwise it is
  assumed to succeed (listed below).

## Properties

| id | modelled as | proof |
|----|-------------|-------|
| C01-C09 | `EBML_CodedSizeLength[Signed]`, `EBML_CodedValueLength[Signed]`, `EBML_ReadCodedSize[Signed]Value` on byte lists | arithmetic on base-256 digits, case split on the 8 lengths |
| C10 | `GetIdLength`, `EBML_FillBufferID`, `EBML_BufferToID`, `EBML_IdFromBuffer` | digit lemmas |
| C11-C15 | integer/float/date payload render and read on bytes | digit lemmas; signed char reading is modelled literally |
| C16-C19 | CRC table, slice loop, byte loop on `BitVec 32`/`UInt32` | loop = bitwise spec by induction; linearity and injectivity of the shift register |
| C20-C21 | Void sizing arithmetic | omega with witnesses |
| C22-C23 | element trees, `UpdateDataSize`, `RenderData`, `ReadData` | structural induction on trees |
| C24-C28 | `EBML_FindNextElement`, `EBML_FindNextId` as window state machines over a stream | invariants on the scan loop, fuel bound |
| C29-C38 | block header and lacing encode/decode | list induction |
| C39-C41 | timestamp arithmetic, re-parenting, durations | integer division lemmas |
| C42-C44 | cue lookup, comparators | list induction, order axioms, witnesses |
| C45-C51 | `array.c` buffers, quicksort, insertion sort, binary search, fifo | refinement to lists; permutation and sortedness invariants |
| C52-C55 | memory stream, buffered stream | refinement to byte lists |
| C56-C57 | node tree as pointer heap | representation invariant, refinement to child lists |
| C58-C60 | bounded strings, ASCII comparison, FourCC | list induction |
| C61-C63 | UTF-8, code page tables, conversion loops | digit lemmas, whole-table kernel evaluation |
| C64-C66 | `lzokay_decompress` as a state machine over input/output with explicit out-of-bounds outcomes | loop invariants |
| C67 | `ReduceLocalPath` | fixpoint of the loop step as witness; termination measure otherwise |
| C68 | `vstprintf_s` output cursor | cursor invariant, witnesses |
| C69 | the big-endian build of the checksum loops | table relation by kernel evaluation of the whole table, induction |
| C70 | the finder, soundness: what it returns is in the stream | loop invariant |
| C71 | `ReadData` of masters, with accesses outside memory as an outcome | witnesses; no crash on any bytes without unknown sizes by induction over the reading functions; the conformant case is in C23 |
| C72-C74 | re-timing of clusters, times in the file, appended frames (`Mkv/Time.lean`) | integer division lemmas, witnesses |
| C75 | `StrListIndex` | list induction |
| C76-C77 | `ArrayAppendStr`, spare bytes of the fifo | refinement to lists, invariant over histories |
| C78-C80 | stability of sorting; `EBML_MasterSort` with the comparisons of C43/C44 | insertion keeps the order of equals; instances of C47/C48; witnesses |
| C81-C83 | `MemSeek`, `DummySkip`, shared buffer of `bufstream.c` | position invariant; induction on the amount; witness |
| C84-C87 | node tree with reference counts and marks | ranks towards the root; specification of the recursive deletion; witnesses |
| C88-C90 | `CharConvSS`, `CharConvUS`, `CharConvSU` | one generic loop, reader and writer contracts, induction over the characters; witnesses |
| C91-C92 | encoder for the LZO1X format of the comments; frame reading with the fixed buffer | decode-of-encode by induction over the tokens; witness |
| C93-C94 | formats as lists of pieces, `vstprintf_s`, `stcatprintf_s` | buffer state as a function of the printed text; digits by induction on the power |
| C95 | `findFirst`/`findNext` over the list of children; the walk equals the list of positions with the ID | induction on the walk |
| C96 | `create` and `addMandatory` with fuel, on any schema; the Matroska table transcribed in `Mkv/Schema.lean` | rank of mandatory nesting gives termination; exact characterisation of completeness; counterexample SeekHead |
| C97 | same | explicit form of the result |
| C98 | `checkMandatory` against `Complete`, stated over the masters below an element | structural induction |
| C99 | `violations` (mkvalidator) over `checkContext` | exact characterisation; counterexample CueReference |
| C100 | `contextLoop` with removal and restart | loop invariant over the list; counterexample Targets in WebM |
| C101 | `reduce` (mkclean) on Matroska trees | structural induction with the facts of the table |
| C102 | `contextLoop` with an arbitrary callback | measure on length and position |
| C103 | the table and `createUsing` | evaluation of the whole table, C10 |
| C104 | the table as schema of the finder | instance of C23, the schema conditions discharged for the table |
| C105 | `EBML_FindNextElement`, `ReadData` of all classes | every element found lies ahead of where the search began (`Ahead`), so the fuel of the model decreases with the bytes left; a result once reached does not change with more fuel |
| C106 | the same | induction over the reading functions: the kind found at a level is one the context at that level offers (`FoundOk`), values come from `readExact` |
| C107 | the same, masters of unknown size | mutual induction over documents whose unknown sizes come last: the search at the end of the stream reports the end at the level of every open master |
| C108 | the same, truncated streams | mutual induction over the document: a cut head is not found, a cut value is an error and left out, a cut group ends at the end of the stream |
| C109 | `Mkv/Life.lean`: link for reading and writing, `CheckCompression`, `BlockReadData`, `BlockReleaseData` as steps on the fields of a block | invariant (unread with the linked sizes, or read with the frames) by induction over the steps; three counterexamples |
| C110 | `Mkv/Life.lean`: `BlockSkipToFrame` | equivalence by cases on the lacing; two counterexamples |
| C111 | mkclean's loop over Cues and Clusters; sizes of the Cues are those of `EBML_ElementUpdateSize` on the same element | the size after one pass is a monotone function of the size before, bounded by the number of CuePoints; a bounded monotone iteration settles (`run_settles`); at the fixed point all positions agree |
| C112 | the remux loop: decoding times, boundaries, tracks in order, splitting of laced blocks (`Mkclean/Remux.lean`) | conservation: frames put in Clusters followed by those pending is constant through every loop; the boundaries are a sublist of the times of the main track, so each Cluster ends at its boundary and the last one flushes all tracks |
| C113 | linking, updating and reading entries of a SeekHead on the children of the entry (`Mkv/Seek.lean`) | the first child of each kind is updated or created; round trip of the ID from C10, positions by 64-bit arithmetic |
| C114 | the `Copy` functions of the EBML classes (`Ebml/Copy.lean`) | mutual induction: a copy denotes the same document and is coherent when the original is; both are rendered as the encoding of that document |
| C115 | `Core/NodeData.lean`: the list of values of a node, stores, reads, references | refinement to "last value stored", by induction over the stores; exact condition for reference counts |
| C116 | `Core/Notify.lean`: records on a heap with addresses, the walk over them, callbacks as any function of the calls so far | refinement to lists of registrations with the invariant `InCall`; the condition for undefined behaviour is shown to be necessary as well |
| C117 | `frameDuration`, `durations` (Mkv/Duration.lean) over the bytes of the block; the specification takes bit fields at the places of the formats' own documents and their rates as factors of a base rate. Exact characterisation per head by tables over whole bytes, lists by induction, out-of-bounds reads as `none`. |
| C118 | `equalData`, `shrinkFrames`, `shrinkBlock`, `findHeaders`, `trackHeader` (Mkclean/Header.lean); "a prefix of the header iff a prefix of all frames seen" is invariant over the blocks of all tracks. Reading back is C33 with header stripping. |
| C119 | `bestLacing` against the length of `laceHead` (Mkv/Block.lean) for every lacing allowed. |
| C120 | `doubling`, `pickScale`, `outCluster` (Mkclean/Cue.lean); induction on the doublings, `cluSetTs` of Mkv/Time.lean for the Timestamp. |
| C121 | `linkCue`, `linkCues`, `cuePointOf` (Mkclean/Cue.lean); induction over blocks, Clusters and Cues. |
| C122 | `firstKey`, `newCues` (Mkclean/Cue.lean); one induction over the Clusters for order, spacing and coverage. |
| C123 | `writeTimes` (Mkclean/Cue.lean); induction over the Clusters. |
| C124 | `read`, `look`, `adv` over fragments (Tremor/Bitwise.lean) refine a position in one number (`expect`); invariant over the calls. |
| C125 | `validate` (Mkvalidator/Main.lean) gives the messages of a run; invariant on the kinds of messages, then bit-wise reasoning on the combined result. |
| C126 | `checkVideo` (Mkvalidator/Checks.lean); messages characterised by the sizes shown, Euclid loop by strong induction. |
| C127 | `validate` (Mkvalidator/Main.lean); every part ends under the conditions, by induction over elements, Clusters and blocks. |
| C128 | `checkVideoStart` (Mkvalidator/Checks.lean); the two arrays after any blocks in closed form (`after`), messages by induction over the Clusters. |
| C129 | `checkLacing` (Mkvalidator/Checks.lean); messages characterised through the first entry for a number (`FirstTrack`). |
| C130 | `checkSeekHead` (Mkvalidator/Checks.lean); no error iff all entries are right (`SeekRight`). |
| C131 | `checkPosSize` (Mkvalidator/Checks.lean); induction with the place of the Cluster before. |
| C132 | `checkCues` (Mkvalidator/Checks.lean) over `blockAt`; induction with the time of the cue point before. |
| C133 | `voidLoop`/`voidStep`/`eltLoop` (Mkvalidator/Checks.lean, Main.lean); mutual induction over the tree and induction over the Segment. |
| C134 | `checkTracks` (Mkvalidator/Checks.lean); induction over tracks and links. |
| C135 | `validate` (Mkvalidator/Main.lean); an invariant (`Known`, FileLemmas.lean) says what the loop over the Segment has collected, and C128 to C134 give what each later check is worth. |
| C136 | `Document` (elements, blocks with header and frames, masters) becomes the element tree of C23/C104, block bytes being those of `RenderBlockData` (C33); the reader is that of C71, where a block is a binary whose bytes go to the block reader, with arbitrary bytes behind them as it reads past its end | `DocFollows` implies `Fits`, then C23; `Shows` by induction over the document with C33 at the blocks; keeps the restrictions of C23 and C33 |
| C137 | `updateTrack`, `setAlgo`, `setHeader`, `setNone` (Mkv/Private.lean), zlib a parameter | invariant (`Inv`) over any sequence of calls; four counterexamples, three of them for all data of their kind |
| C138 | `blockAlgo` and the setters (Mkv/Private.lean) | decision logic |
| C139 | `cleanDisplay` (Mkclean/Tracks.lean) | case analysis (`cleanDisplay_cases`, `unshrink_ok`); counterexample |
| C140 | `cleanDisplay`, `cleanCrop` (Mkclean/Tracks.lean) | exact condition; two counterexamples |
| C141 | `unshrink`, `serious`, `gcd` (Mkclean/Tracks.lean) | equivalence, `gcd` proved to be the greatest common divisor; counterexample |
| C142 | `cleanDisplay` (Mkclean/Tracks.lean) | fixed point for pictures without crop; counterexample |
| C143 | `cleanTracks` (Mkclean/Tracks.lean), the sampling frequency found in CodecPrivate a parameter | invariant over the loop and its restarts (`cleanLoop_inv`) |
| C144 | `cleanTracks` (Mkclean/Tracks.lean) | exact result by induction, total for sound tracks (`cleanDisplay_total`); crashes by evaluation |
| C145 | `combine`, `fresh`, `cleanTracks` (Mkclean/Tracks.lean) | invariant over the loop and its restarts |
| C146 | `combine`, `cleanTracks` (Mkclean/Tracks.lean) | invariant, with the invariant that no track is removed; two counterexamples |
| C147 | `mainTrack` (Mkclean/Tracks.lean) | induction over the tracks |
| C148 | `cleanTracks`, `gcd`, `fresh` (Mkclean/Tracks.lean), fuel for loops and recursion | a weight falls with each restart (`again_weight`), numbers run out of taken ones (`above_lt`) |
| C149 | `cleanStereo`, `combine` (Mkclean/Tracks.lean) | invariant; counterexample |
| C150 | `MATROSKA_LinkClusterBlocks`, `LinkClusterReadBlock`, `MATROSKA_LinkBlockWithReadTracks` as far as they choose and drop (Mkclean/Link.lean) | each child has one `Fate` given by `Plays`, by cases per child and induction over the list |
| C151 | `LinkClusters`, the check for SimpleBlocks, the write linking loop of mkclean | refinement of C150: marking a list made of fates gives a list of fates; append lemma for the marking fold |
| C152 | table `WTracks`, its size, and the loop that writes FlagLacing | invariant `Marks` of the table over the marking of all Clusters; two counterexamples |
| C153 | `SplitPath` and `GetProtocol` on strings as lists of characters, Core/Url.lean | lemmas on the last place of a delimiter; every path is taken apart and put together symbolically |
| C154 | the name mkclean makes, with `stcatprintf_s` of the model of C94 | C153, C94 for the format, lengths; counterexamples evaluated by the kernel |
| C155 | the name mkparts makes; `%zu` goes through the model of `vstprintf_s` | the formatting loop is run symbolically for all names and numbers |
| C156 | `RelPath`, `AbsPath`, `AbsPathNormalize` | cases by protocol and host; exact result of `RelPath` without protocol |
| C157 | `UpperPath`, `RemovePathDelimiter`; the size of the buffer for the last part is not modelled | spec `Upper`; exact condition for the answer no; the path becomes shorter with every step, by induction |
| C158 | `CheckExts` | induction on the list of entries |
| C159 | bzip2 decompression (`Verif/Bzip`): every array access outside of bounds or of an entry never written is `bad`, loops have fuel | an invariant for each loop (`Safe`), down to the walk along the permutation; fuel is shown to be enough from the bits left |
| C160 | the same, against the format written from the side of the compressor (`Verif/Bzip/Spec.lean`) | each part reads back what its counterpart wrote (`Reads`): canonical codes, move to front, the inverse of sorting rotations (LF mapping), randomisation, runs, CRC table against the polynomial; induction over blocks and over calls with 1024 bytes of room |
| C161 | the same | the state carries the blocks that are done and where their checksums were read |
| C162 | the same | every step gives the same with more input (`Grow`); a whole stream leaves less than a byte |
| C163 | loop of `CompressFrameZLib` around a `deflate` that is a parameter with its contract from zlib.h (`Mkv/Zip.lean`) | false for an empty frame (counterexample for every `deflate` that needs room, any number of steps); all other frames by induction on the output left; the block model hangs on empty frames accordingly |
| C164 | loop of `UnCompressFrameZLib` around an `inflate` that is a parameter with its contract (`Mkv/Zip.lean`) | induction on the data left; for arbitrary input on a bound of the output |
| C165 | block reading of `Mkv/Block.lean` with the decompressor of `Bzip/` per frame | from C160 by induction on the frames; existence of a packing from C160 |
| C166 | CodecPrivate of a Vorbis track, the three headers with codebooks, floors, residues, mappings and modes, the loop over frames (`Verif/Vorbis`); a read beyond the end gives -1 as in C124 (`rd_is_read`), each index, division, shift and power is checked | false, counterexamples evaluated in the kernel; the partial statement by a logic of reading steps (`Sat`: for any bits, which crashes can occur, what holds of the value, and what holds if nothing was read beyond the end) |
| C167 | the same, against the bits of headers as the Vorbis specification has them (`Vorbis/Spec.lean`) | false for long comments, for all of them; round trip step by step (`Reads`), the number of values by a search that is shown to find the root from where it starts |
| C168 | the same | false; exact for all well formed headers and all frames; which numbers of modes work is a table of 64 by 256 entries |
| C169 | laying out and writing the output of mkclean (`Verif/Mkclean/Output.lean`, mkclean.c:2095-2200, 2934-3199): guessed and settled positions, first Segment head, SeekHead, Void, sections, Cues, Clusters, rewriting of Cues, Segment head and SeekHead; sections are bytes | false, counterexample; the bytes of every finished file exactly, with the growth of the Segment head |
| C170 | the same | for all finished files: the last SeekHead is rendered from the real positions, its size is checked to be the old one |
| C171 | the same | false, counterexample; exact: by how many bytes CuePoints miss, from the settled layout (C111, C112) and the positions written |
| C172 | the same, Clusters rendered as in C20 to C26 | false, two counterexamples; proved where no Cluster changes while written |
| C173 | the same | false, counterexample; outcomes by cases, the layout settles by C111 |
| C174 | the output (C169) and loading of Matroska documents with blocks (C136) | composition: the bytes of each Cluster are the rendering of a document, which loads from any place of any file |
| C175 | `var_stscanf_s`, `StringToInt`, `IntToString` (Core/Scanf) | exact value for every text by induction over the digits with any width; round trip with the printf model of C93; negation by witness |
| C176 | `StringToInt64`, `Int64ToString` (Core/Scanf) | never undefined (induction over at most eight digits), 0 for every text without `0x`, round trip on the halves below 2^31; negation by witness |
| C177 | the loop over `argv` (Mkclean/Setup) | induction over the list of options against a separate record of what they ask for; negation by witness |
| C178 | the TimestampScale loop in 64 bits (Mkclean/Setup) | induction over the doublings, closed form of the wrapped value for non-termination; negation by witness |
| C179 | `CheckMatroskaHead` and the head written (Mkclean/Setup) | induction over the elements of the head; negation by witness |
| C180 | `ReduceSize` (C100, C101) with the profile found in the head (C179) | composition; negation with the head mkvmerge writes |
| C181 | every `goto exit` of `main` with its `Result` (Mkclean/Setup) | case analysis over all conditions, as three equivalences |
| C182 | opening, truncating and erasing files around the work (Mkclean/Setup) | case analysis over a file system as a function from paths; negation for every file system of the shape described |
| C183 | choice of the content encoding at mkclean.c:2744-2880 (Mkclean/Encoding) over the tracks of Mkv/Private | the invariant of C137 through the choice |
| C184 | same | case analysis; exact, with a counterexample |
| C185 | same | case analysis; exact table |
| C186 | same | case analysis; the negation for every setting |
| C187 | the loop over level 1 elements, mkclean.c:1791-1851 (Mkclean/Sections) | fold, by induction; counterexample |
| C188 | Segment Info: scale, duration, order, mkclean.c:1860-1906 (Mkclean/Sections) | list lemmas; durations as exact numbers |
| C189 | `Mkclean/AppName.lean`: the names joined, the skipped 14 characters, the letters, the buffers of 1024 characters | Exact formula for all names and options; induction over the number of cleanings; counterexamples for a second cleaning and for short names of mkclean |
| C190 | `Mkclean/Output.lean`: `writeCluster`, `writeClusters` | The times found in the finished file are those of the fold `ascend`, which is shown to be strictly ascending; induction over the Clusters |
| C191 | `Core/Classes.lean` (node.c: registering, `InitClass`, lookup tables) and `Core/ClassesSpec.lean` (`Built`: what a class is by its definitions) | invariant over registrations, induction over the recursion of `InitClass`; `C191_registered`, `C191_order`, `C191_again` |
| C192 | `Core/Classes.lean` (`NodeEnumClassFilterRated`, `NodeClass_IsPartOf`) | filter plus sort (C48); `C192_list_partial`, `C192_counterexample` |
| C193 | Core/Refs.lean: nodes with counts, attributes of type `TYPE_NODE_REF` in the structure and in dynamic data, `Node_AddRef`, `Node_Release` with the cascade of `CallDelete`, `MetaSet`, `SetData` | Invariant over all legal programs: count = references held + references from nodes, all references point to live nodes; the cascade is proved to keep it by induction on a budget that the number of nodes bounds. Reachability, counts and freed-once follow |
| C194 | Core/NodeLife.lean: `LockModules`, `UnlockModules`, `CallCreate`, `CallDelete`, `NodeCreateFromClass`, `NodeContext_Cleanup` over chains of classes | Induction over the chain for one creation, over the program for histories and counts; the history of every node is one of four forms, counts are uses |
| C195 | Ebml/ScanFirst.lean: `HeadAt`, what an element of a level at a position is, without windows and loops | The loops over the window are shown to pass over exactly the positions that begin no element; induction over the fuel of the search |
| C196 - C198 | Mkparts/Split.lean: the search for documents, `CopyTo`, the loop that writes the parts, all ways `main` ends; over the model of `EBML_FindNextElement` and `EBML_ElementSkipData` | Induction over the documents; the search inside the header by C195; the copy loop by induction over what is left |
| C199 | `Core/Base64`: `BufferToBase64` and `ExprIsBase64` (parser2.c:612-708), room counted down as in the code | induction over groups of three bytes against `rfc4648`; tables compared entry by entry |
| C200 | `Core/Frac`: `SimplifyFrac` with its 128 rounds of Euclid | product of both numbers halves each round, so 128 rounds find the divisor; error bound by division with remainder |
| C201 | `Core/Frac`: `ExprIsInt`, `ExprIsInt64`, `ExprIsIntEx`, `ExprIsInt64Ex`, `ExprIsHex`, `ExprIsFrac` over lists of characters | induction over the digits, reusing C175; fractions through C200 |
| C202 | `Core/Frac`: `FractionToString` over the model of `stprintf_s` | `%0*d` reduced to a written width, then C93; rounding bound by arithmetic |
| C203 | collecting the blocks of each track, deleting tracks without blocks, main track and order (`Mkclean/Collect.lean`, mkclean.c:1931-1941, 2297-2395) | collecting is a filter per number, by induction; one pass of deletions is a filter because each number comes up as often as there are tracks with it, so the second round deletes nothing |
| C204 | the same with `Mkclean/Remux.lean` | composition of C203 and C112, and the lemma that only pieces of tracks in the order are dealt |
| C205 | `Mkclean/Output.lean` and `Mkvalidator/Main.lean`, joined by `SeesAll` in `Mkvalidator/Neat.lean` | `clean_neat` (every finished file is neat: entries of the SeekHead are the places of the sections, PrevSizes the sizes before) and `Neat.accepted` (mkvalidator's loop and checks on a neat Segment by induction on the elements) |
| C206 | `Mkclean/Cue.lean` and `Mkvalidator/Checks.lean`, joined by `SeesKeys` | composition of C122 and C132 |
| C207 | Mkclean/LiveOut.lean: `SetClusterPrevSize`, the Segment head of unknown size, `WriteJunk`, the loop writing the Clusters with `--live` | The file as a concatenation, each Cluster as the encoding of a document; induction over the Clusters |
| C208 | same | Size of an updated Cluster marked as unknown = number of bytes written (from C22); chain of PrevSizes by induction; two witnesses where the Cluster changes afterwards |
| C209 | Ebml/Scan.lean | The loop over IDs slides over bytes below 16 (induction over the filler) and reaches the state of a search started behind them |
| C210 | `dealAll`, `dealCluster`, `dealRound`, `dealTrack` (Mkclean/Remux.lean), whose run on unlaced tracks is shown equal to a list of turns (Mkclean/RemuxOrder.lean) | induction over the main track and the boundaries; the cut of laces is an invariant of every run |
| C211 | `convSS`, `convKS` (Ebml/Text.lean); `iconv` is a parameter | case analysis over what the converter gives; negation with a witness, and for every converter |
| C212 | `setUni`, `stringGet`, `converters` (Ebml/Text.lean) over the element model | composition of the two conversions with rendering and reading; the cut for all longer texts; a text in UTF-8 that is stored as something else |
| C213 | `convSK` (Ebml/Text.lean) | arithmetic of bytes and units for every length; negation with a witness |
| C214 | `merge`, `fields`, `written` (Mkclean/Fields3D.lean) | induction over the blocks two at a time, state of a merged block; negation with a witness |
| C215 | `mark`, `lookup` (Mkclean/Fields3D.lean) | the marks as a set, for any list of options; negation with a witness |
| C216 | `escape`, `attrib` (Core/Xml.lean) | round trip with the reading of entities, for every text that fits; negation with a witness |
| C217 | `beginElement`, `endElement`, `endData`, `writeDoc` (Core/Xml.lean) | round trip with a small XML parser by induction over the tree; negation with a witness |
| C218 | `doubleToFrac` (Core/DoubleFrac.lean) | bit fields of the double, then C200; negation with a witness |
| C219 | `keyframe`, `setKeyframe`, `reload` (Mkv/KeyFlags.lean) | induction over the calls, head round trip (C29); negation with a witness |
| C220 | Core/FileLibc.lean (`Handles`): descriptors and directories of a stream and of the process, closing an unopened one is an error | Props/FileLibc.lean: invariant by induction over the calls |
| C221 | Core/FileLibc.lean (`File`): bytes, position, modes; the number of bytes the system transfers is a parameter | Props/FileLibc.lean: byte by byte specification of writing; induction over the skip loop; counterexamples |
| C222 | Core/FileLibc.lean (`enumDir`, `listDir`): `readdir` and `stat` are parameters, types from Core/Url.lean | Props/FileLibc.lean: induction over the entries; counterexamples |
| C223 | Core/FileLibc.lean (`toDate`, `datePacked`), the calendar is a parameter | Props/FileLibc.lean |
| C224 | Mkclean/BlockTimes.lean (`outBlock` for `--remux`, for Clusters relinked by `GenerateCueEntries` and for kept ones, `outPiece`) on Mkv/Time.lean with different scales for reading and writing; the written time computed in closed form, then bounded | Props/BlockTimes.lean |
| C225 | Mkclean/BlockTimes.lean (`outDuration`), with `pickScale` of Mkclean/Cue.lean | Props/BlockTimes.lean |
| C226 | the loader of C23 with a Segment and Clusters of unknown size | counterexample by evaluation; for any number of Clusters by induction two at a time: reading a Cluster ends at the head of the next one, skipping moves behind that head, the search goes on behind its content |
| C227 | The loops over the Segment in mkclean and mkvalidator (`walk`), with the finder, the reader and the passing over of elements of the library; sections of known size and Clusters of unknown size in any order | Induction over the sections, using what C23 says of known sizes and that a Cluster of unknown size is ended by the next section; partial: deeper unknown sizes missing |
| C228 | `load` on an element whose content is a CRC-32 element and arbitrary bytes, with the checksum status | The status is fixed once the checksum is read, whatever the parser does with the rest (`Reports`); then C16 and C19 |
| C229 | `EBML_ElementInfiniteForceSize` with the writing of heads | Counterexample; case analysis on the length of the size field for what holds |
| C230 | `EBML_IdToString` | Case analysis on the length of the ID; a small reader of the text as spec; counterexample for ID 0 |
| C231 | The loops of C227 with the end position of the Segment in the contexts | As C227 (same induction, with the end of the contexts as a parameter); crash for every Segment of known size that ends with a Cluster of unknown size; partial because of that |
| C232 | `StreamOpen`, `GetStream` and `Open` of the file streams (Core/Open.lean) on the model of `GetProtocol` | outright, from what `GetProtocol` yields for an address and for another name; counterexamples for addresses and the empty name |
| C233 | the loops over the arguments of mkvalidator and mkparts and the texts behind (Mkvalidator/Args.lean) | induction over the arguments, with the words compared by `decide`; counterexample with an option behind the file |
| C234 | `showElt`, `showLoop`, `mkvtree` (Ebml/Show.lean: mkvtree.c:87-255) over the finder of Ebml/Scan.lean | Refuted (crash on every file, by computation from the definition for all data). For the mended program: induction over the fuel with two claims, on an element and on a loop; the state is what is left of the file, by context (`Rem`), and the contexts that reach behind the position are those of the chain (`openAt`). Levels refuted by a file of nine elements |
| C235 | `Core/Attr.lean`: `MetaSet` and `MetaGet` behind the lookup, `EqData`, `EqFrac`, `Node_MaxDataSize`, `Node_DataSize` (node.c:1909-2008, 2041-2334) on the bytes of a structure and the values of C115; the functions a class runs on a change are only a flag | partial: values of a fixed size, texts, flags, fractions, NULL, other attributes and announcements for all types, places, values and states (`Props/Attr.lean`); counterexamples for fractions without denominator, zero in attributes without default, announcements of long texts and odd flags, and transitivity of sameness |
| C236 | `Core/TreeFind.lean`: `NodeTree_ChildByName`, `NodeTree_CreateChild`, `NodeTree_ChildByClass`, `FindChild` (nodetree.c:86-151) on trees of numbered nodes with a class and an optional name; the class test is a parameter | proved: by mutual induction over the tree against the relations `Below` and `Seen` (`Props/TreeFind.lean`) |
| C237 | `Core/NodeCopy.lean`: `NodeDup_Replace`, `CopyData`, `Node_Copy` (node.c:2724-2801) on the attributes of C235, with the buffer on the stack; expressions and attributes with functions of their own are not modelled | partial: induction over the attributes of the class, with C235 for each of them (`Props/NodeCopy.lean`); three counterexamples for what the hypotheses leave out |
| C238 | `Core/Params.lean`: `ExprSkipAfter`, `ExprSkipSpace`, `ExprTrimSpace`, `ExprIsName`, `ExprIsSymbol`, `ExprIsSymbol2`, `ExprParamEnd`, `ExprParamNext` (parser2.c:576-610, 707-762) on texts without terminator; the loop over a list is not in the sources | partial: induction over the text and the list against a written-out list (`Props/Params.lean`); symbols other than 0 |
| C239 | `Core/Toggle.lean`: `Node_Toggle` (node.c:2716-2722) on the attributes of C235 | partial: from C235 for numbers and bits, with the other attributes (`Props/Toggle.lean`); flags with a default |
| C240 | Core/MasterOps.lean: the loops of EBML_MasterCount, EBML_MasterClear, EBML_MasterErase and EBML_MasterSort on the pointers of Core/Node.lean; sorting itself is that of Core/Sort.lean | Induction on the list of children with the invariant of C56 (`Rep`, `Ranked`); deleting uses `release_good`, shared with C85 |
| C241 | Mkclean/ClusterData.lean: the loops of ReadClusterData and UnReadClusterData over blocks as in Mkv/Life.lean | Induction over the children with the two states of a block of C109; the law "read, then release, is the identity" |
| C242 | `NodeParamName`, `CheckHex`, `NodeFindDef`, `NodeDataDef`, `MetaFindParam`, the name and type lookups of `NodeParamMeta` (Core/AttrNames.lean); not the functions of classes (`META_PARAM_META`) | Lookup in the concatenated tables; round trips of printing/scanning (C93, C175) and of codes (C60); witnesses for the failures |
| C243 | `MetaEnumClass`, `MetaEnum`, `NodeEnumDef` (Core/AttrEnum.lean) over the tables of C242; memory for the lists does not run out | Lists as filters of the concatenated tables; induction over the tables |
| C244 | `SysTickToString` (Core/TickText.lean) with 32-bit ticks in milliseconds | The formatted output of C93/C94 piece by piece, arithmetic of the units, and a reader of clocks that inverts the text |
| C245 | `NodeHibernate` (Core/Hibernate.lean); the registered functions and `NodeContext_Cleanup` are parameters acting on a state | Trace of calls against an inductive protocol; the levels increase up to `INT_MAX`, so the fuel suffices |
| C246 | `EBML_FindNextId` (Ebml/FindId.lean, the model of C28) without creating and validating the element | Case analysis of the marker bits of the first byte, induction over the size loop; both directions |
| C247 | `BuildMetaLookup` and `ReleaseMetaLookup` (which table is shared, allocated, freed), `UnInitClass`, `UnRegisterModule`, the part of `InitClass` calling them (Core/ClassTables.lean); the heap is a list of addresses, freeing another one is an error | Ownership invariant over all operations; induction over the forest of classes (the budget of the recursion suffices) |
| C248 | `NodeCreateFromClass`, `NodeSingleton`, `AddSingleton`, the loop over the singletons of `UnRegisterModule`, `Node_AddRef`, `Node_Release` (Core/Singletons.lean, on the array functions of Core/Sort.lean); the functions of classes are parameters that do not touch other nodes | Invariant over all histories with a count of what the program holds; the binary search by ID on an array ordered by ID and module |
| C249 | `NodeContext_FindClass` with its cache, `FindModuleClass`, `NodeContext_FindClassEx`, what `NodeContext_CreateClass`, `NodeClassResize` and failing classes do to the array and the cache (Core/FindClass.lean, on Core/Sort.lean) | Invariant (array ordered by ID and module, cache registered) over all histories; binary search by ID, then scan of the block of equal IDs |
| C250 | `ByteRateToString`, `Scale32` (Core/RateText.lean), over the models of `FractionToString`, `IntToString` and `stprintf_s` | the text is stated outright (`rateText`), the parts follow from C93 and the theorems on fractions; the bound of the rounding is separate |
| C251 | `ParamName`, `ParamFormat`, `NodeContext_FindDataType`, `NodeContext_TypeName`, `NodeContext_UnitName` (Core/DataType.lean) | loops as searches (induction over the rest of the tables), names compared through C59's `uppers`; the tables are compared entry by entry with the constants of nodebase.h; the type table is shorter than its mask (counterexample) |
| C252 | `GUIDToString`, `RGBToString`, `SWAP32` (Core/ColorText.lean), over the model of `stprintf_s` | texts stated digit by digit (`hx`), pieces of the format through C93, injectivity from the end of the text; the half with the highest bit set is wrong (counterexample) |
| C253 | `ExprIsRGB`, `ReadHex` for colours (Core/ColorRead.lean), with C252's `RGBToString` | digits and their value by induction, `SWAP32` on four bytes; writing then reading is the composition with C252; overflow and white are counterexamples |
| C254 | `ExprIsFourCC`, `ExprSkipAfter` for a character (Core/FourccRead.lean), over `StringToFourCC` | both directions of acceptance by induction over the search for the quote; the codes are listed by length |

## Trusted base

* The Lean 4.33.0 kernel; axioms at most `propext`, `Classical.choice`, `Quot.sound`
  (checked with `#print axioms`).
* The reading of the C sources recorded in the citations. The layouts of the audio heads in C117 were written down
  without the standards at hand (the sandbox has no network).
* The simplifications stated at the head of each model file and on the definitions.

### Which code is modelled

| file | modelled | not modelled |
|------|----------|--------------|
| libebml2/ebmlmain.c | coded sizes and values, ids, `EBML_FindNextElement`, `EBML_FindNextId`, element heads | class registration, allocation |
| libebml2/ebmlnumber.c, ebmldate | payload of integers, floats, dates | float arithmetic itself (bits only) |
| libebml2/ebmlcrc.c | both checksum loops and the table, little- and big-endian | |
| libebml2/ebmlvoid.c | sizing and replacing | |
| libebml2/ebmlmaster.c, ebmlelement.c, ebmlbinary.c, ebmlstring.c | tree of elements, update, render, read, sort, lookup, mandatory children, context check, copying | `InfiniteForceSize` |
| libmatroska2/matroska_sem.c | the element table: IDs, classes, parents, profiles | default values |
| libmatroska2/matroskablock.c, matroskamain.c | block heads, compression settings of a track with its CodecPrivate, laces, header stripping, times, durations of laced frames and from the heads of MPEG, AC-3, E-AC-3, DTS, AAC and Vorbis frames, cue lookup, the comparisons for sorting, LZO frames, linking, releasing and skipping to frames | finding tracks by number, zlib itself, compressing with bzip2 |
| libmatroska2/bzip2 | decompression: bit reader, codes, move to front, rotations, runs, checksums, `BZ2_bzDecompress` and the loops around it | compression, the fast variant of decompression, the file interface |
| libmatroska2/lzokay | `lzokay_decompress` | |
| libmatroska2/tremor | the bit reader (`bitwise.c`), `vorbis_synthesis_headerin` with codebooks, floors, residues, mappings and modes (`long` has 64 bits, allocation succeeds; `codec_setup` is only used where `matroskablock.c` uses it) | decoding of audio, Ogg framing |
| corec/array | arrays, fifo, sorting, search | `ArrayAlign`, locks |
| corec/str | bounded copies, comparison, `StrListIndex`, FourCC, `vstprintf_s` without floats | scanning, float conversions |
| corec/helpers/file | memory stream, buffered stream, `ReduceLocalPath`, splitting, joining, relative and parent paths, types by extension | files of the operating system |
| corec/helpers/parser | Base64, numbers and fractions in text, fractions as text, `StringToInt` and its relatives | the XML reader and writer, buffers |
| corec/helpers/charconvert | code pages and conversion loops | |
| corec/node | the tree functions, reference counts, stored values, notification | classes, property tables, deletion while notifying |
| mkclean, mkvalidator, mkparts, MatroskaParser | `ReduceSize`, all checks of mkvalidator and how its `main` combines them, laying out Cues and Clusters, dealing out blocks when remuxing, finding the header to strip, cleaning the tracks and picking the main track, linking blocks with tracks and the lacing flags, the names of output files of mkclean and mkparts, searching and copying the parts in mkparts, the TimestampScale, linking and generating Cues, times of Clusters written, and what a table row above names | everything else. MatroskaParser.c is not built (inside `if (0)`, libmatroska2/CMakeLists.txt:109-114) and does not fit the current headers |

## Where the code and the properties disagree

Each of these is a theorem (`..._counterexample`) about the model, found while proving; the witness is
in the theorem.

* C03/C04/C08: sizes of 2^35-1 and up are written in 5 bytes and lose their high bits.
* C12: signed integers with a byte above 0x7F after the first are misread where `char` is signed.
* C20: `EBML_VoidSetFullSize` misses the requested size at the boundaries of the size field.
* C21: `EBML_VoidReplaceWith` leaves a filler that is too short; a gap of 2 bytes gives a Void of
  unknown size.
* C22: changing a string or binary after the sizes were updated leaves the announced size of the parent
  stale (the setters clear `bNeedDataSizeUpdate`).
* C23: a sibling behind a master of unknown size is lost on loading: `EBML_ElementSkipData` finds the
  next element, moves behind its head and drops it; every second unknown-size Cluster of a live
  recording disappears when the Segment is read with `ReadData`.
* C26: the finder's containment check forgets the head of the element.
* C28: `EBML_FindNextId` writes a fifth byte into a buffer of four.
* C69: a big-endian build stores checksums in the opposite byte order.
* C71: reading a master of known size whose last child has unknown size, at the end of the stream, ends
  in a NULL pointer; a checksum in a truncated memory stream is computed over memory behind it, and so
  is a checksum that is not the first child, even if the document is complete.
* C29: a block without payload on a track below 128 cannot be read at the end of the file (the reader
  insists on five bytes).
* C31/C32: counts of remaining bytes are 32 bit, blocks of 4 GiB are misread.
* C33: the automatic lacing choice compares the lengths before compression; compressed frames of
  different length can end up with fixed-size lacing and the block is lost.
* C35: Xiph laces of large frames and EBML laces of frames of 2^28 bytes overflow the buffer of four
  bytes per frame.
* C36: the frame count is one byte; more than 256 frames are written as that count modulo 256.
* C37: header stripping ignores its scope when reading; a frame shorter than the header can pass the
  comparison (which runs into the next frame) and then the amount to write wraps around.
* C38: sizes of a lace are not validated against the block, so a frame of nearly 4 GiB is accepted in a
  block of ten bytes; a Xiph lace cut after 0xFF makes the reader loop for ever; a one-frame EBML lace
  writes behind the size list.
* C39: a block caches the time it reported; setting another time is accepted but not reported. A track
  timestamp scale below 1 can make the divisor 0, then every time is stored as the cluster time.
* C40: detaching a block and attaching it elsewhere keeps the relative time. A block built only for
  writing cannot be moved between clusters.
* C42: a Void between cue points ends the search.
* C44: none of the three sort orders is consistent (see the counterexamples).
* C72: setting the time of a cluster shifts those blocks whose time nobody asked for before, keeps the
  others, and silently leaves a wrong tick count where the new offset does not fit.
* C73: rounding the cluster time and the block offset separately loses up to two ticks.
* C74: frames cannot be got from a block whose frames are all empty.
* C45: insertion and deletion beyond the end of an array are not rejected but copy about 2^64 bytes.
* C76: a merging string append that runs out of memory has already removed the terminator.
* C78: arrays of more than 17 pointers are not sorted stably.
* C79: the quicksort runs below the array when the comparison says that an element is less than itself;
  the comparison of attachments does so for attachments without a name, that of cluster children for
  Timestamps.
* C52: `MemSeek` limits the target to 0 but not to the virtual offset, so on a stream with offset 100 a
  seek to 50 makes the unsigned position wrap and the next read starts before the block.
* C53: `MemWrite` writes to `Written` without testing it for NULL; `BufFlush` passes NULL, so that a
  buffered stream over a memory stream crashes on its first flush (C55).
* C55: `BufStream` and `BufDelete` ignore the outcome of the flush: bytes reported as written are lost.
* C83: `bufstream` reads into and writes from the same `Buffer`; a read between a write and the flush makes
  the flush write back what was read.
* C56: `NodeTree_MoveBefore` crashes on a node without parent and does not check that `Before` is a sibling.
* C84: nothing stops a caller from attaching a node below itself; clearing then uses freed memory.
* C87: `NodeTree_Clear`, with which reading a master starts, also takes the node out of its parent.
* C63, `charconvert_utf8.c:441-442`: the rows for UTF-16 and UTF-32 have no read or write function, and `CharConvSS`/`CharConvUS` call them unchecked (`C63_utf16_page_counterexample`). An overlong NUL (C0 80) becomes a terminator inside the result (`C63_overlong_nul_counterexample`).
* C90, `charconvert_utf8.c:286-321` and `356-369`: a UTF-8 character that does not fit is skipped and later shorter ones are still stored; a supplementary character with room for one unit is stored as its low 16 bits (`C90_utf8_counterexample`, `C90_utf16_counterexample`).
* C65, `lzokay.c:54-64`: the scan for the end of a zero run does not test for the end of the input (`C65_reads_in_bounds_counterexample`: 00 00 00).
* C92, `matroskamain.c:1115,1254`: the output buffer of an LZO frame is `MAX(2048, size*4)`, so a frame that expands more is `ERR_INVALID_DATA` (`C92_lzo_frame_counterexample`).
* C67, `tools.c:329-348`: with no delimiter in front of the first "/.." the loop repeats forever ("/../a", "a/../b": `C67_path_reduction_counterexample`); a name that begins with two dots is taken for a parent reference (`C67_dots_counterexample`).
* C68/C93, `str.c:186-648`: a right-aligned string is cut to the room before the blanks and then overflows; `%5c` can use the place of the terminator; `%r` adds instead of subtracting what it wrote; a format ending in `%` is read past its end (`C68_counterexample`). Decimals above twelve digits, negative `%x`, `%-5d`, `%u` and `%09x` print something else than documented (`C93_counterexample`).
* C96, `ebmlmaster.c:250-258`: only children that are mandatory *and* unique are created, so that a fresh SeekHead, Cues, Tags or Tracks lacks its mandatory child (`C96_created_complete_counterexample`).
* C99, `ebmlmaster.c:EBML_MasterCheckContext`: mandatory children are demanded without regard to the profile. CueRefCluster is mandatory and disabled everywhere, so that no CueReference ever passes mkvalidator (`C99_profile_check_counterexample`, `C99_no_cue_reference_passes`).
* C100, same function: after a removal the walk restarts at the first child and moves on from it unchecked; a disallowed element behind a removed first one stays (`C100_removal_counterexample`).
* C109, `matroskamain.c:268-412`: linking a block for reading and then for writing runs `CheckCompression` twice and adds the stripped header twice (`C109_write_link_counterexample`); linking for writing only, or with an empty ContentEncodings, follows a NULL pointer (`C109_write_only_counterexample`, `C109_empty_encodings_counterexample`).
* C110, `matroskamain.c:993-1010`: without a lace the head size is computed from the track number instead of taken from the file; in a lace the sizes already contain the stripped header (`C110_seek_counterexample`, `C110_seek_strip_counterexample`).
* C111: a CuePoint that is not linked to a block is followed as a NULL pointer.
* C112: a main track of one block uses an address behind its array; keyframe times out of order can make the
  program loop for ever, because the entry to drop is looked up by binary search in an array that is not
  sorted (the sort is commented out); so does a block without frames in another track; a laced block whose frames
  all end before the Cluster does is put in the next one (the test meant for "all frames are late" is reversed).
* C113: a SeekID shorter than its lead byte says is read beyond its data.
* C114: the mark for an unknown size is not copied, so the copy of a live Segment or Cluster is written with a known
  size; a string that was never set is copied from a NULL pointer.
* C115: where `uint_fast32_t` has 32 bits, node data ids of 2^24 and up share codes. Replacing a stored node reference by
  another neither releases the old node nor references the new one.
* C116: a callback that unregisters itself and then the listener behind it makes the walk read a released record. An
  event list emptied while it is walked is never released (the list is still marked as in use when `DataFree` is called):
  the next event reports receivers that do not exist, and trips an assertion in debug builds. The record of a callback that
  unregisters itself and then all others is leaked.
* C117: the block count of a DTS frame is put together with a shift by 7 instead of 6, so frames of more than 2048
  samples get a wrong duration; AC-3 with a `bsid` below 8 is refused and a reserved rate gives 0 ns without an error;
  frames shorter than their head are read beyond the end of the block.
* C119: `GetBestLacingType` compares Xiph lacing with an estimate of EBML lacing taken from the wrong differences; frames of
  1, 100 and 5 bytes get the longer lace.
* C120: mkclean doubles a TimestampScale below 100000 (mkclean.c:1875-1876); 0 loops forever and 2^63 or more shifts a negative
  number. The Clusters learn the new scale only where Cues are generated (778) or blocks are remuxed (2466), so with Cues, or with
  one Cluster, the Timestamps of a file with the scale 22675 mean eight times the time (with Cues, if C121 lets it get that far).
* C121: existing Cues are read with the new scale (3010, 542), so after a change of the scale a Cue other than at 0 matches no block or
  the wrong one; without a block `MATROSKA_CuePointUpdate` uses a null pointer (matroskamain.c:871). CueTrack is taken modulo 65536.
* C123: Clusters closer together than one tick are not moved apart and get equal Timestamps.
* C125: the errors 5, 6, 7, 9, 10 and 0xC3 of mkvalidator do not count, so the file is called valid and the exit status is 0; errors 0x100, 0x200 and 0x300 alone give exit status 0 because only eight bits of the code remain.
* C126: a display height of 0 with a display width below the picture's makes mkvalidator divide by zero; in a Matroska file a display size with nothing against it draws a warning (a count of -1 is taken for "not zero") while one with one point against it does not.
* C127: a video track with the number 65535 (or above) keeps mkvalidator running forever (a 16-bit loop counter); Clusters with blocks but no Tracks crash it through a null pointer, before error 0x41 can be printed.
* C128: mkvalidator does not report a Cluster whose video track has no keyframe at all, nor a block whose track number is one above the highest.
* C129/C132: mkvalidator takes blocks and cue points of tracks from 32768 on for those of an unknown track.
* C130: mkvalidator accepts any place for the second SeekHead in the first one, and any Cluster entry in a file without Clusters.
* C131: with another element between two Clusters mkvalidator reports a right PrevSize and accepts the distance of the two Clusters.
* C133: of two Voids of 3000 bytes in one element only the second is counted (`VoidAmount =` where `+=` is meant, line 173), so there is no warning.
- C104/C136: `ReadTrackEntry`/`UpdateDataSizeTrackEntry` (compression of CodecPrivate, matroskamain.c:2255-2358) is the identity on tracks whose ContentEncodings do not cover the private data; the tree model has it as a plain master. The parents' hooks of blocks (`SetBlockParent`, `SetBlockGroupParent`, :1361-1395) do nothing for an element that has no parent yet, the case while reading.
- C137: `UpdateDataSizeTrackEntry` compresses the CodecPrivate into a buffer of the original size and then reads as many bytes from it as the compressor reports (matroskamain.c:2315-2321): heap over-read for data that does not shrink. A new TrackEntry has `CodecPrivateCompressionAlgo` 0 = zlib (nodes are zeroed, the class has no constructor): its CodecPrivate is never compressed but announced as zlib. From zlib to LZO or bzip2 the data is decompressed and the new algorithm announced.
- C139: a DisplayWidth and DisplayHeight equal to the pixel sizes are deleted (mkclean.c:1123-1133) although the default is the pixel size minus the crop: the picture is shown with another aspect ratio.
- C140: `CleanCropValues(.., 0, 0)` is called for display sizes that are an aspect ratio (mkclean.c:1039), which always drops the crop; for other units the crop is compared with the display size instead of the pixel size.
- C141: `Serious` becomes -1, which is true, for a display size of more than half the pixels (mkclean.c:1090-1095): 1280x720 for 1920x1080 is replaced although it was meant to be less suspicious.
- C142: an aspect ratio written by the first cleaning loses its crop in the second.
- C144: `CleanTracks` reads and writes `Alternate3DTracks[0]` of an empty array for a track number 0 (mkclean.c:1012, 1283), dereferences NULL for a missing PixelWidth or PixelHeight (1019-1020), a missing CodecID in WebM (1294) and a missing TrackUID of an eye (1205), and goes on using a track it deleted for a sampling frequency of 0 (1325-1330; the message says the default value is used).
- C146: tracks are removed after combined tracks name them.
- C149: the restart after combining two eyes (mkclean.c:1270) takes the new mode 1 for the old mode 1.
- C150: a track with a ContentEncodings element that has no ContentEncoding makes `CheckCompression` use a null pointer for every block of the track (matroskamain.c:278).
- C152: the table of mkclean is sized by `(int)` of the largest TrackNumber; a number of 2^32 is looked up far behind it (mkclean.c:2761), 2^31-1 overflows. Tracks without TrackType do not note their laces. With --alt-3d frames are appended to blocks (mkclean.c:2689) without noting the lace: FlagLacing 0 is written for a laced track (not modelled).
* C153: the directory of `/movie.mkv` is empty, as that of `movie.mkv`; an http address with a fragment so long that the `#` is not in the copy is followed by a null pointer access.
* C154: the output for `/movie.mkv` goes to the current directory; `a\b.mkv` is taken apart at the backslash; a name of more than 1023 characters that repeats `clean.` is its own output name: the input is overwritten.
* C155: mkparts prints the number of the part with `%zu`, which `stcatprintf_s` does not know: the first part gets a name ending in `u.` without extension, all others read a string from the address 1, 2, ...
* C156: `RelPath` ignores case, so `/Movies/a` relative to `/movies` and back is `/movies/a`; `file:///a` relative to `file://` and back is `file://a`; `/local/a` relative to `http://h` and back is on the host.
* C157: the parent of `smb://` is `smb://`; the last part of `smb://host` is `smb://`.
* C158: the extension is looked for in the query if there is a dot or slash in it.
- C163: `CompressFrameZLib` (matroskamain.c:183-226) gives `deflate` room for `CursorSize` bytes per call; for an empty frame that is no room, `avail_out` stays 0 and the end is never reached: writing a block with an empty frame on a zlib track, computing its size (1632), or compressing an empty CodecPrivate (2319) never ends.
- C166: `floor1_unpack` writes up to 31*8 posts into 65 entries of `postlist` (floor1.c:103-110), `res0_unpack` up to 64*8 books into 256 entries of `booklist` (res012.c:109-110). Reads at the end of data give -1, which is used as index of `class_dim`, as a number of bits and as a shift. A codebook of dimension 0 divides by zero, one with many dimensions overflows while its number of values is searched, one of type 2 gets a negative number of values. A second setup header with a bad type frees the first through `_floor_P[type]` with a type out of range. An empty CodecPrivate is read. After a setup header that fails `vi.codec_setup` is `NULL` and used (matroskablock.c:268-273); without one the number of modes is 0 and the shift negative. `fscod > ci->modes` should be `>=`: the first mode that is not there is used through a null pointer (274, 282). A frame of size 0 at the end of the data is read. Where an error is returned early (243, 249) the headers leak.
- C167: the first byte of CodecPrivate is the number of packets less one, not the number of bytes their sizes take (matroskablock.c:227-228): as soon as the comments take 255 bytes or more the first header is sought too early and the block is refused with `ERR_INVALID_DATA`. Lengths of code words written as runs can exceed 32, a codebook of type 2 with 2^32 values is accepted without any.
- C168: the mode of a Vorbis packet is in the bits behind the first, `(c>>1) & mask`; the code takes the high ones, `(c & 0x7F) >> (7-n)` (272-273). With two modes a bit of the audio data decides which duration a frame gets. A rate of 2^31 and above makes durations negative. That the whole block counts although blocks overlap is taken as given in the statement.
- C169: mkclean reserves for the size of the Segment what the size of the source's Segment needs (mkclean.c:2012-2030). When the new Segment needs more, the check at 3162 is always false, the SeekHead is written directly behind the longer head (3184 is commented out) and the last bytes of the old SeekHead stay: the Void loses its first byte, the Segment announces more bytes than follow, the Cues are off.
- C171: the SeekHead written third can have another size than the second one, for which Cues and Clusters were placed; mkclean only prints a message, all CuePoints are off by the difference.
- C172: PrevSize keeps the planned value when `WriteCluster` increments a Timestamp (which may take a byte more) or drops a block that cannot be read (245-279).
- C173: positions of sections in the SeekHead are one round old; when the last SeekHead gets another size mkclean gives up with -23 although nothing is wrong with the source. When the Cues change their size it gives up with -18 after writing over the old Cues.
- C175: `IntToString` of a negative number in hexadecimal prints one digit of garbage (`-1` is `0x00000006`); reading a number of 2^63 and more overflows `int64_t`.
- C176: `StringToInt64` only reads hexadecimal of sixteen digits, and takes the lower half as signed; every decimal text is 0.
- C177: `--alt-3d -1` writes to `Alternate3DTracks[-1]`; `mkclean in.mkv --remux out.mkv` reads `out.mkv` and ignores `in.mkv`.
- C178: `--timecodescale 500000` has no effect (consequence of C176); a TimestampScale of 0 makes mkclean run forever.
- C179: `MATROSKA_VERSION` is 2, so mkclean refuses files with DocTypeReadVersion above 2, among them its own output for `--doctype` 3, 6 and 7; `--doctype 1` writes the version of the source.
- C180: the profile is taken from DocTypeReadVersion, so files of mkvmerge (DocTypeVersion 4, DocTypeReadVersion 2) lose CodecDelay, SeekPreRoll, Colour, DiscardPadding and the like.
- C181: exit code 0 and an unfinished file for `--alt-3d` in an old profile, `--remux` without a main track or keyframe, and when the EBML head cannot be written. `--optimize_nv` on a file without Tracks dereferences a null pointer (2253).
- C182: with the same name for source and output the file is truncated and then removed; an output that could not be opened, because it is read-only, is made writable and deleted.
- C183: a CodecPrivate compressed with bzlib is announced as zlib unchanged; with `--optimize` an encrypted PCM track may have its CodecPrivate "compressed" to more bytes, reading past the buffer.
- C184: without options, frames compressed with zlib are stored uncompressed if the CodecPrivate could be compressed (`encoding = CompressionAlgo`, 2850, is NONE unless `--compalgo 0` is given).
- C185: `--compalgo 0` ("force compression algorithm of all tracks") has no effect without `--optimize`; with `--optimize` VobSub and PCM tracks with a compressible CodecPrivate are left uncompressed.
- C186: ContentEncodings that describe encryption are removed in every setting.
- C187: of several Tags elements (legal in Matroska) only the last is kept; an unreadable Cluster is dropped without a message.
- C189: mkclean skips 14 characters of the old names if they begin with `mkclean `, outside the text if they are shorter (a file of `mkclean 1.0` with both names the same). For the files it wrote itself nothing is skipped, since the names of the libraries stand in front: every cleaning makes the WritingApp longer, up to 1023 characters.
- C171: Cues that are written again and shorter are followed by a Void; where the size of the Void cannot be expressed (C20) one byte of the former Cues stays in front of the first Cluster.
* C192: `NodeClass_IsPartOf` follows `ParentClass` without a limit. Classes that name each other as parents are never initialised, but they are in the array, and every listing of classes then runs forever (`C192_counterexample`). A class whose ancestors are missing counts as not abstract with default priority, whatever its definition says (`Shown`).
- C193: nodes that refer to each other in a circle are never freed. `SetData` (node.c:547-582) copies a new node over the old value of a dynamic `TYPE_NODE_REF` attribute without counting either: the old one leaks and the new one is freed while still referred to; `Node_Release` of the owner then touches freed memory.
- C194: when memory for a node runs out, `NodeCreateFromClass` (node.c:1262-1290) returns without `UnlockModules`: the modules of the class count a use that never ends. A class with two functions for creation whose second one fails does not get its own function for deletion called.
- C195: `EBML_FindNextElement` (ebmlmain.c:470-666) gives up when the stream ends inside its window: an element in the last bytes is missed if a byte that begins no ID is in front of it.
- C196: mkparts searches for the Segment inside the content of the EBML header (mkparts.c:243). A header that ends in the byte EC hides the Segment; the program then crashes.
- C197: mkparts closes the last output a second time (mkparts.c:321 and 329-330), so no split ever ends properly. `EL_Type` gets NULL (line 244) if a header, or any stray element behind the last Segment, is not followed by a Segment. `CopyTo` (131-140) spins for ever when the input is shorter than the Segment says, and drops the bytes of the short read.
- C198: `EBML_ElementSkipData` is called with dummy elements allowed (line 263) and returns the first child of a Segment of unknown size; mkparts takes its position for the end of the Segment (269), so the part has no content. With nothing behind it, the position in the file is taken for the size (271).
- C199: encoding zero bytes into a buffer of zero characters stores the terminator behind the end (`C199_no_room_counterexample`).
- C200: `SimplifyFrac` of a value above `INT_MAX` gives a denominator of 0: 2^32/1 becomes 2^30/0 (`C200_counterexample`).
- C201: `ExprIsFrac` adds the decimals of negative numbers with the wrong sign: `-1.5` is read as -5/10, `-0.5` as 5/10 (`C201_negative_counterexample`).
- C202: `FractionToString` shows -3/2 as `-1.-50`, two thirds as `0.66`, and 1000000000 as a percentage as `0%`; more than nine decimals overflow an `int` (`C202_counterexample`).
- C203: the track mkclean makes to combine two eyes (C149) has no blocks, so that `--remux` deletes it again (`C203_combined_counterexample`). A file of subtitles is not remuxed, and mkclean returns 0 with an incomplete file (`C203_subtitles_counterexample`).
* C208: `SetClusterPrevSize` fixes the sizes before the Clusters are written; `WriteCluster` then may increment a Timestamp (one byte more) or drop an unreadable block, and the PrevSize of the next Cluster is wrong. With `--live` the check that would report it is skipped (mkclean.c:682).
* C211: `CharConvSS` and the wide variants (charconvert_linux.c) convert `strlen+1` bytes and then store another terminator at `*_Out`: one unit behind the buffer when the conversion fills it. A text too long for the buffer is copied unconverted.
* C212: `EBML_UniStringSetValue` goes through a buffer of 2048 bytes: longer texts lose everything from byte 2046 on, without an error, possibly in the middle of a character.
* C213: `CharConvSW` and `CharConvSU` pass the number of characters where `iconv` wants bytes.
* C214: `mkclean --alt-3d` loses the fields it merges: the merged blocks are deleted when read again, or get bytes of the source that are not the field.
* C215: the mark of a 3D track is looked up without a check of the number of marks (mkclean.c:2506, 2653).
* C216: an attribute longer than a line of 1023 characters is written without its closing quote.
* C217: `TextElementEndData` does not escape the text.
* C218: `DoubleToFrac` uses the sign bit as a bit of the exponent: negative numbers shift by a negative count.
* C219: `MATROSKA_BlockSetKeyframe` has no lasting effect on a Block in a BlockGroup.
- C221: a short read (signal, pipe) is taken for the end of the file (file_libc.c:106), and `STREAM_LENGTH` is not updated by writing or by setting the length (file_libc.c:87-88, 146-155).
- C222: the result of `stat` is not looked at (file_libc.c:203), so a link that leads nowhere gets undefined date, size and kind; a path that does not fit `MAXPATH` is cut and looked up (199-203).
- C223: the first second of 2001 is the invalid date, and is moved by a second (date_libc.c:26).
- C224: if mkclean changes the TimestampScale (always below 100000 ns) and the file has Cues or one Cluster, Cluster Timestamps are not converted, and local times only for the blocks looked up for a Cue (mkclean.c:2221, 2231 link the blocks with the new scale, nothing does so for the Cluster), so that blocks can change places. With generated Cues a local time beyond 16 bits stays in old ticks (the error of `MATROSKA_BlockSetTimestamp` is ignored in matroskamain.c:128, 137, 658 and 667). `--remux` rounds the start of the Cluster and the distance to it separately: nearly two ticks.
- C224: a piece of a laced block that is too far from its Cluster gets the time of the Cluster without an error (matroskamain.c:1596).
- C225: BlockDuration (and ReferenceBlock) are not converted to the new TimestampScale: subtitles are shown longer or shorter.
* C226: `ReadData` of a master calls `EBML_ElementSkipData` for every child and ignores the element it returns (`ebmlmaster.c`), so that of Clusters of unknown size in a live recording only the first, third, fifth, ... are loaded.
- C227: mkclean's loop gives up the element met while passing over an element of unknown size it does not read (mkclean.c:1845-1847: an assertion, without assertions the element is lost); mkvalidator goes on with it (`C227_passed_over`).
- C228: mkclean loads with no level of checksums verified, so it does not notice damage: it drops the CRC-32 elements (C101) and writes new, matching checksums over damaged data. A checksum that was only asked for (`EBML_MasterUseChecksum`) counts as invalid until the element is written and loaded again (`C228_requested`).
- C229: `EBML_ElementInfiniteForceSize` sets the flag for unknown size instead of clearing it (ebmlelement.c:199) and compares the length of the size field while the flag is set, so it returns success for every size and changes nothing in the file.
- C230: `EBML_IdToString` returns 4 for ID 0 but leaves the text empty.
- C231: mkclean and mkvalidator crash (NULL pointer, ebmlmaster.c:417; with assertions enabled they abort) on every file whose Segment has a known size and whose last element is a Cluster of unknown size (`C231_open_last`).
- C232: a path such as `a://b` (a file `b` in a directory `a:`) is taken for an address with the protocol `a`, and cannot be opened. `file:///tmp/x` is given to `open` as it is. Opening the empty name succeeds, with a stream whose descriptor is -1.
- C233: `mkvalidator a.mkv --quiet` reads a file called `--quiet` and reports `a.mkv` as unknown; the same in mkparts. mkparts splits without `--split` (`Split` is 1 from the start), so that its exit code -3 does not occur. `mkvalidator --help --quick` does not list the options.
- C234: mkvtree passes a null pointer as the context of the whole stream (mkvtree.c:251) and reads its profile (109): it crashes after the first line, for every file. Were that mended, the indentation would still be wrong: `UpperElement` counts contexts already left (mkvtree.c:122-125), so where two masters end at the same place the second element behind them is shown too far left.
- C235: A fraction without denominator is not set where there is another one (5/0 over 0/0 reads as 0/0); an attribute without default (`DFLAG_NODEFAULT`) set to 0 or the empty text can not be read afterwards; a text that is too long for its place, and a flag set to 2, are announced every time though nothing changes; "same" is not transitive (NULL, 0/0, 5/0).
- C236: The recursive search by name does not prefer the nearest node: it goes through the first child completely before the second, so a match three levels down can win over one two levels down (`C236_depth_counterexample`).
- C237: An attribute without default that the original has no value for keeps the value the copy had before (`C237_unset_counterexample`); a text among the optional values that is longer than `MAXDATA`-1 is cut in the copy (`C237_long_text_counterexample`); binary data declared larger than `MAXDATA` overflows the buffer of `Node_Copy` on the stack (`C237_buffer_counterexample`).
- C238: Asked for the character 0 (as a test for the end of the text), `ExprIsSymbol` moves behind the terminator when only blanks are left, `ExprIsSymbol2` also when nothing is left (`C238_end_counterexample`).
- C239: A flag without default (`DFLAG_NODEFAULT`) among the optional values can not be read any more once it was inverted to 0 (`C239_no_default_counterexample`, from `C235_zero_counterexample`).
- C241: a second Block in one BlockGroup is neither read nor released by mkclean (`C241_second_block_counterexample`); blocks without a time stay in memory when released without the option (`C241_untimed_counterexample`).
- C242: the text name of an attribute does not always find it: the lookup ignores case, a name or code such as `_BAD` is read as a hexadecimal number, and names reported by the node (`DATA_DYNNAME`) or cut by the buffer are not found at all.
- C243: an attribute whose type a derived class declares anew is listed twice.
- C244: `SysTickToString` negates its argument, which overflows for the lowest number.
- C246: `EBML_FindNextId` accepts a head that is cut off within its size field, with size 0.
- C247: a plugin class derived from `NODEMODULE_CLASS` keeps its tables when its plugin is unregistered while its `Meta` is set to NULL; unregistering the program's classes then reads through NULL (node.c:943, 399, 951).
- C248: `NodeCreateFromClass` does not free the node when `AddSingleton` fails (node.c:1273-1277).
- C251: `NodeContext_TypeName` masks with 0x3F and reads a table of 42 names; types 42 to 63 read behind its end (node.c:1897-1901). Nothing in the repository calls it.
- C252: `GUIDToString` and `RGBToString` pass numbers with the highest bit set as negative `int`s, which `%08x` writes wrongly; white (`#FFFFFF`) is one of them (strtypes.c:38-40, 127).
- C253: white is written as `#000006`; `ExprIsRGB` overflows on texts of sixteen digits (parser2.c:774-778).

Observed while reading, not (yet) theorems: an empty master with a checksum loads with status 0; a
loaded Void cannot be rendered again; a checksum element is accepted at any position among the children
and then covers only what follows.
