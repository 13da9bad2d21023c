import Verif.Ebml.Master
/-!
The element types of Matroska, transcribed from `/repo/libmatroska2/matroska_sem.c` (context
definitions 987-1248 and semantic tables 531-985; the trailing comment of each row gives the lines),
`/repo/libebml2/ebmlmain.c:26-55` and `/repo/libmatroska2/matroskamain.c:49-52`.

A row is: ID, class, has a default value, and the semantic table as (mandatory, unique, row of the
child type, disabled profiles). Profiles are the bits of `matroska.h:22-28`: 1 = V1, 2 = V2, 4 = V3,
8 = WebM, 16 = DivX, 32 = V4, 64 = V5. The default values themselves are not transcribed.
-/
namespace Verif.Ebml.Master

/-- Row of Segment. -/
abbrev rSegment : Nat := 269
/-- Row of SeekHead. -/
abbrev rSeekHead : Nat := 14
/-- Row of Seek. -/
abbrev rSeek : Nat := 13
/-- Row of SeekID. -/
abbrev rSeekID : Nat := 11
/-- Row of Info. -/
abbrev rInfo : Nat := 32
/-- Row of ChapterTranslate. -/
abbrev rChapterTranslate : Nat := 25
/-- Row of Cluster. -/
abbrev rCluster : Nat := 63
/-- Row of BlockGroup. -/
abbrev rBlockGroup : Nat := 61
/-- Row of Block. -/
abbrev rBlock : Nat := 39
/-- Row of ReferencePriority. -/
abbrev rReferencePriority : Nat := 46
/-- Row of TrackEntry. -/
abbrev rTrackEntry : Nat := 192
/-- Row of CueReference. -/
abbrev rCueReference : Nat := 205
/-- Row of CueRefTime. -/
abbrev rCueRefTime : Nat := 201
/-- Row of CueRefCluster. -/
abbrev rCueRefCluster : Nat := 202
/-- Row of Targets. -/
abbrev rTargets : Nat := 258
/-- Row of TargetTypeValue. -/
abbrev rTargetTypeValue : Nat := 252
/-- Row of TagEditionUID. -/
abbrev rTagEditionUID : Nat := 255
/-- Row of TagChapterUID. -/
abbrev rTagChapterUID : Nat := 256
/-- Row of TagAttachmentUID. -/
abbrev rTagAttachmentUID : Nat := 257
/-- Row of Tag. -/
abbrev rTag : Nat := 267
/-- Row of Tags. -/
abbrev rTags : Nat := 268
/-- Row of SimpleTag. -/
abbrev rSimpleTag : Nat := 266
/-- Row of ChapterDisplay. -/
abbrev rChapterDisplay : Nat := 242
/-- Row of Tracks. -/
abbrev rTracks : Nat := 193
/-- Row of Title. -/
abbrev rTitle : Nat := 29
/-- Row of MuxingApp. -/
abbrev rMuxingApp : Nat := 30
/-- Row of WritingApp. -/
abbrev rWritingApp : Nat := 31
/-- Row of TimestampScale. -/
abbrev rTimestampScale : Nat := 26
/-- Row of SegmentFilename. -/
abbrev rSegmentFilename : Nat := 16
/-- Row of Timestamp. -/
abbrev rTimestamp : Nat := 33
/-- Row of PrevSize. -/
abbrev rPrevSize : Nat := 37
/-- Row of Position. -/
abbrev rPosition : Nat := 36

/-- The table. -/
def mkvTable : List SCtx := [
  ⟨0x5F584B4D, .master, false, [⟨true, false, 1, 0⟩, ⟨true, false, 269, 0⟩]⟩, -- 0: Stream, libmatroska2/matroskamain.c:49-52
  ⟨0x1A45DFA3, .master, false, [⟨true, true, 2, 0⟩, ⟨true, true, 3, 0⟩, ⟨true, true, 4, 0⟩, ⟨true, true, 5, 0⟩, ⟨true, true, 6, 0⟩, ⟨true, true, 7, 0⟩, ⟨true, true, 8, 0⟩]⟩, -- 1: EBMLHead, libebml2/ebmlmain.c:45-55
  ⟨0x4286, .uint, true, []⟩, -- 2: EBMLVersion, libebml2/ebmlmain.c:37
  ⟨0x42F7, .uint, true, []⟩, -- 3: EBMLReadVersion, libebml2/ebmlmain.c:38
  ⟨0x42F2, .uint, true, []⟩, -- 4: EBMLMaxIdLength, libebml2/ebmlmain.c:39
  ⟨0x42F3, .uint, true, []⟩, -- 5: EBMLMaxSizeLength, libebml2/ebmlmain.c:40
  ⟨0x4282, .str, true, []⟩, -- 6: EBMLDocType, libebml2/ebmlmain.c:41
  ⟨0x4287, .uint, true, []⟩, -- 7: EBMLDocTypeVersion, libebml2/ebmlmain.c:42
  ⟨0x4285, .uint, true, []⟩, -- 8: EBMLDocTypeReadVersion, libebml2/ebmlmain.c:43
  ⟨0xEC, .void, false, []⟩, -- 9: EBMLVoid, libebml2/ebmlmain.c:28
  ⟨0xBF, .crc, false, []⟩, -- 10: EBMLCrc32, libebml2/ebmlmain.c:29
  ⟨0x53AB, .bin, false, []⟩, -- 11: SeekID, :989
  ⟨0x53AC, .uint, false, []⟩, -- 12: SeekPosition, :990
  ⟨0x4DBB, .master, false, [⟨true, true, 11, 0⟩, ⟨true, true, 12, 0⟩]⟩, -- 13: Seek, :991 with :531-534
  ⟨0x114D9B74, .master, false, [⟨true, false, 13, 0⟩]⟩, -- 14: SeekHead, :992 with :537-539
  ⟨0x73A4, .uid, false, []⟩, -- 15: SegmentUUID, :993
  ⟨0x7384, .str, false, []⟩, -- 16: SegmentFilename, :994
  ⟨0x3CB923, .uid, false, []⟩, -- 17: PrevUUID, :995
  ⟨0x3C83AB, .str, false, []⟩, -- 18: PrevFilename, :996
  ⟨0x3EB923, .uid, false, []⟩, -- 19: NextUUID, :997
  ⟨0x3E83BB, .str, false, []⟩, -- 20: NextFilename, :998
  ⟨0x4444, .uid, false, []⟩, -- 21: SegmentFamily, :999
  ⟨0x69A5, .bin, false, []⟩, -- 22: ChapterTranslateID, :1000
  ⟨0x69BF, .uint, false, []⟩, -- 23: ChapterTranslateCodec, :1001
  ⟨0x69FC, .uint, false, []⟩, -- 24: ChapterTranslateEditionUID, :1002
  ⟨0x6924, .master, false, [⟨true, true, 22, 8⟩, ⟨true, true, 23, 8⟩, ⟨false, false, 24, 8⟩]⟩, -- 25: ChapterTranslate, :1003 with :542-546
  ⟨0x2AD7B1, .uint, true, []⟩, -- 26: TimestampScale, :1004
  ⟨0x4489, .float, false, []⟩, -- 27: Duration, :1005
  ⟨0x4461, .date, false, []⟩, -- 28: DateUTC, :1006
  ⟨0x7BA9, .str, false, []⟩, -- 29: Title, :1007
  ⟨0x4D80, .str, false, []⟩, -- 30: MuxingApp, :1008
  ⟨0x5741, .str, false, []⟩, -- 31: WritingApp, :1009
  ⟨0x1549A966, .master, false, [⟨false, true, 15, 8⟩, ⟨false, true, 16, 8⟩, ⟨false, true, 17, 8⟩, ⟨false, true, 18, 8⟩, ⟨false, true, 19, 8⟩, ⟨false, true, 20, 8⟩, ⟨false, false, 21, 8⟩, ⟨false, false, 25, 8⟩, ⟨true, true, 26, 0⟩, ⟨false, true, 27, 0⟩, ⟨false, true, 28, 0⟩, ⟨false, true, 29, 0⟩, ⟨true, true, 30, 0⟩, ⟨true, true, 31, 0⟩]⟩, -- 32: Info, :1010 with :549-564
  ⟨0xE7, .uint, false, []⟩, -- 33: Timestamp, :1011
  ⟨0x58D7, .uint, false, []⟩, -- 34: SilentTrackNumber, :1012
  ⟨0x5854, .master, false, [⟨false, false, 34, 127⟩]⟩, -- 35: SilentTracks, :1013 with :567-569
  ⟨0xA7, .uint, false, []⟩, -- 36: Position, :1014
  ⟨0xAB, .uint, false, []⟩, -- 37: PrevSize, :1015
  ⟨0xA3, .block, false, []⟩, -- 38: SimpleBlock, :1016
  ⟨0xA1, .block, false, []⟩, -- 39: Block, :1017
  ⟨0xA2, .bin, false, []⟩, -- 40: BlockVirtual, :1018
  ⟨0xA5, .bin, false, []⟩, -- 41: BlockAdditional, :1019
  ⟨0xEE, .uint, true, []⟩, -- 42: BlockAddID, :1020
  ⟨0xA6, .master, false, [⟨true, true, 41, 0⟩, ⟨true, true, 42, 0⟩]⟩, -- 43: BlockMore, :1021 with :572-575
  ⟨0x75A1, .master, false, [⟨true, false, 43, 0⟩]⟩, -- 44: BlockAdditions, :1022 with :578-580
  ⟨0x9B, .uint, false, []⟩, -- 45: BlockDuration, :1023
  ⟨0xFA, .uint, true, []⟩, -- 46: ReferencePriority, :1024
  ⟨0xFB, .sint, false, []⟩, -- 47: ReferenceBlock, :1025
  ⟨0xFD, .sint, false, []⟩, -- 48: ReferenceVirtual, :1026
  ⟨0xA4, .bin, false, []⟩, -- 49: CodecState, :1027
  ⟨0x75A2, .sint, false, []⟩, -- 50: DiscardPadding, :1028
  ⟨0xCC, .uint, false, []⟩, -- 51: LaceNumber, :1029
  ⟨0xCD, .uint, true, []⟩, -- 52: FrameNumber, :1030
  ⟨0xCB, .uint, true, []⟩, -- 53: BlockAdditionID, :1031
  ⟨0xCE, .uint, true, []⟩, -- 54: Delay, :1032
  ⟨0xCF, .uint, true, []⟩, -- 55: SliceDuration, :1033
  ⟨0xE8, .master, false, [⟨false, true, 51, 127⟩, ⟨false, true, 52, 127⟩, ⟨false, true, 53, 127⟩, ⟨false, true, 54, 127⟩, ⟨false, true, 55, 127⟩]⟩, -- 56: TimeSlice, :1034 with :583-589
  ⟨0x8E, .master, false, [⟨false, false, 56, 127⟩]⟩, -- 57: Slices, :1035 with :592-594
  ⟨0xC9, .uint, false, []⟩, -- 58: ReferenceOffset, :1036
  ⟨0xCA, .uint, false, []⟩, -- 59: ReferenceTimestamp, :1037
  ⟨0xC8, .master, false, [⟨true, true, 58, 111⟩, ⟨true, true, 59, 111⟩]⟩, -- 60: ReferenceFrame, :1038 with :597-600
  ⟨0xA0, .master, false, [⟨true, true, 39, 0⟩, ⟨false, true, 40, 127⟩, ⟨false, true, 44, 0⟩, ⟨false, true, 45, 0⟩, ⟨true, true, 46, 8⟩, ⟨false, false, 47, 0⟩, ⟨false, true, 48, 127⟩, ⟨false, true, 49, 25⟩, ⟨false, true, 50, 23⟩, ⟨false, true, 57, 127⟩, ⟨false, true, 60, 111⟩]⟩, -- 61: BlockGroup, :1039 with :603-615
  ⟨0xAF, .bin, false, []⟩, -- 62: EncryptedBlock, :1040
  ⟨0x1F43B675, .master, false, [⟨true, true, 33, 0⟩, ⟨false, true, 35, 127⟩, ⟨false, true, 36, 72⟩, ⟨false, true, 37, 0⟩, ⟨false, false, 38, 1⟩, ⟨false, false, 61, 0⟩, ⟨false, false, 62, 127⟩]⟩, -- 63: Cluster, :1041 with :618-626
  ⟨0xD7, .uint, false, []⟩, -- 64: TrackNumber, :1042
  ⟨0x73C5, .uint, false, []⟩, -- 65: TrackUID, :1043
  ⟨0x83, .uint, false, []⟩, -- 66: TrackType, :1044
  ⟨0xB9, .uint, true, []⟩, -- 67: FlagEnabled, :1045
  ⟨0x88, .uint, true, []⟩, -- 68: FlagDefault, :1046
  ⟨0x55AA, .uint, true, []⟩, -- 69: FlagForced, :1047
  ⟨0x55AB, .uint, false, []⟩, -- 70: FlagHearingImpaired, :1048
  ⟨0x55AC, .uint, false, []⟩, -- 71: FlagVisualImpaired, :1049
  ⟨0x55AD, .uint, false, []⟩, -- 72: FlagTextDescriptions, :1050
  ⟨0x55AE, .uint, false, []⟩, -- 73: FlagOriginal, :1051
  ⟨0x55AF, .uint, false, []⟩, -- 74: FlagCommentary, :1052
  ⟨0x9C, .uint, true, []⟩, -- 75: FlagLacing, :1053
  ⟨0x6DE7, .uint, true, []⟩, -- 76: MinCache, :1054
  ⟨0x6DF8, .uint, false, []⟩, -- 77: MaxCache, :1055
  ⟨0x23E383, .uint, false, []⟩, -- 78: DefaultDuration, :1056
  ⟨0x234E7A, .uint, false, []⟩, -- 79: DefaultDecodedFieldDuration, :1057
  ⟨0x23314F, .float, true, []⟩, -- 80: TrackTimestampScale, :1058
  ⟨0x537F, .sint, true, []⟩, -- 81: TrackOffset, :1059
  ⟨0x55EE, .uint, true, []⟩, -- 82: MaxBlockAdditionID, :1060
  ⟨0x41F0, .uint, false, []⟩, -- 83: BlockAddIDValue, :1061
  ⟨0x41A4, .str, false, []⟩, -- 84: BlockAddIDName, :1062
  ⟨0x41E7, .uint, true, []⟩, -- 85: BlockAddIDType, :1063
  ⟨0x41ED, .bin, false, []⟩, -- 86: BlockAddIDExtraData, :1064
  ⟨0x41E4, .master, false, [⟨false, true, 83, 31⟩, ⟨false, true, 84, 31⟩, ⟨true, true, 85, 31⟩, ⟨false, true, 86, 31⟩]⟩, -- 87: BlockAdditionMapping, :1065 with :629-634
  ⟨0x536E, .str, false, []⟩, -- 88: Name, :1066
  ⟨0x22B59C, .str, true, []⟩, -- 89: Language, :1067
  ⟨0x22B59D, .str, false, []⟩, -- 90: LanguageBCP47, :1068
  ⟨0x86, .str, false, []⟩, -- 91: CodecID, :1069
  ⟨0x63A2, .bin, false, []⟩, -- 92: CodecPrivate, :1070
  ⟨0x258688, .str, false, []⟩, -- 93: CodecName, :1071
  ⟨0x7446, .uint, false, []⟩, -- 94: AttachmentLink, :1072
  ⟨0x3A9697, .str, false, []⟩, -- 95: CodecSettings, :1073
  ⟨0x3B4040, .str, false, []⟩, -- 96: CodecInfoURL, :1074
  ⟨0x26B240, .str, false, []⟩, -- 97: CodecDownloadURL, :1075
  ⟨0xAA, .uint, true, []⟩, -- 98: CodecDecodeAll, :1076
  ⟨0x6FAB, .uint, false, []⟩, -- 99: TrackOverlay, :1077
  ⟨0x56AA, .uint, true, []⟩, -- 100: CodecDelay, :1078
  ⟨0x56BB, .uint, true, []⟩, -- 101: SeekPreRoll, :1079
  ⟨0x66A5, .bin, false, []⟩, -- 102: TrackTranslateTrackID, :1080
  ⟨0x66BF, .uint, false, []⟩, -- 103: TrackTranslateCodec, :1081
  ⟨0x66FC, .uint, false, []⟩, -- 104: TrackTranslateEditionUID, :1082
  ⟨0x6624, .master, false, [⟨true, true, 102, 8⟩, ⟨true, true, 103, 8⟩, ⟨false, false, 104, 8⟩]⟩, -- 105: TrackTranslate, :1083 with :637-641
  ⟨0x9A, .uint, true, []⟩, -- 106: FlagInterlaced, :1084
  ⟨0x9D, .uint, true, []⟩, -- 107: FieldOrder, :1085
  ⟨0x53B8, .uint, true, []⟩, -- 108: StereoMode, :1086
  ⟨0x53C0, .uint, true, []⟩, -- 109: AlphaMode, :1087
  ⟨0x53B9, .uint, false, []⟩, -- 110: OldStereoMode, :1088
  ⟨0xB0, .uint, false, []⟩, -- 111: PixelWidth, :1089
  ⟨0xBA, .uint, false, []⟩, -- 112: PixelHeight, :1090
  ⟨0x54AA, .uint, true, []⟩, -- 113: PixelCropBottom, :1091
  ⟨0x54BB, .uint, true, []⟩, -- 114: PixelCropTop, :1092
  ⟨0x54CC, .uint, true, []⟩, -- 115: PixelCropLeft, :1093
  ⟨0x54DD, .uint, true, []⟩, -- 116: PixelCropRight, :1094
  ⟨0x54B0, .uint, false, []⟩, -- 117: DisplayWidth, :1095
  ⟨0x54BA, .uint, false, []⟩, -- 118: DisplayHeight, :1096
  ⟨0x54B2, .uint, true, []⟩, -- 119: DisplayUnit, :1097
  ⟨0x54B3, .uint, true, []⟩, -- 120: AspectRatioType, :1098
  ⟨0x2EB524, .bin, false, []⟩, -- 121: UncompressedFourCC, :1099
  ⟨0x2FB523, .float, false, []⟩, -- 122: GammaValue, :1100
  ⟨0x2383E3, .float, false, []⟩, -- 123: FrameRate, :1101
  ⟨0x55B1, .uint, true, []⟩, -- 124: MatrixCoefficients, :1102
  ⟨0x55B2, .uint, true, []⟩, -- 125: BitsPerChannel, :1103
  ⟨0x55B3, .uint, false, []⟩, -- 126: ChromaSubsamplingHorz, :1104
  ⟨0x55B4, .uint, false, []⟩, -- 127: ChromaSubsamplingVert, :1105
  ⟨0x55B5, .uint, false, []⟩, -- 128: CbSubsamplingHorz, :1106
  ⟨0x55B6, .uint, false, []⟩, -- 129: CbSubsamplingVert, :1107
  ⟨0x55B7, .uint, true, []⟩, -- 130: ChromaSitingHorz, :1108
  ⟨0x55B8, .uint, true, []⟩, -- 131: ChromaSitingVert, :1109
  ⟨0x55B9, .uint, true, []⟩, -- 132: Range, :1110
  ⟨0x55BA, .uint, true, []⟩, -- 133: TransferCharacteristics, :1111
  ⟨0x55BB, .uint, true, []⟩, -- 134: Primaries, :1112
  ⟨0x55BC, .uint, false, []⟩, -- 135: MaxCLL, :1113
  ⟨0x55BD, .uint, false, []⟩, -- 136: MaxFALL, :1114
  ⟨0x55D1, .float, false, []⟩, -- 137: PrimaryRChromaticityX, :1115
  ⟨0x55D2, .float, false, []⟩, -- 138: PrimaryRChromaticityY, :1116
  ⟨0x55D3, .float, false, []⟩, -- 139: PrimaryGChromaticityX, :1117
  ⟨0x55D4, .float, false, []⟩, -- 140: PrimaryGChromaticityY, :1118
  ⟨0x55D5, .float, false, []⟩, -- 141: PrimaryBChromaticityX, :1119
  ⟨0x55D6, .float, false, []⟩, -- 142: PrimaryBChromaticityY, :1120
  ⟨0x55D7, .float, false, []⟩, -- 143: WhitePointChromaticityX, :1121
  ⟨0x55D8, .float, false, []⟩, -- 144: WhitePointChromaticityY, :1122
  ⟨0x55D9, .float, false, []⟩, -- 145: LuminanceMax, :1123
  ⟨0x55DA, .float, false, []⟩, -- 146: LuminanceMin, :1124
  ⟨0x55D0, .master, false, [⟨false, true, 137, 23⟩, ⟨false, true, 138, 23⟩, ⟨false, true, 139, 23⟩, ⟨false, true, 140, 23⟩, ⟨false, true, 141, 23⟩, ⟨false, true, 142, 23⟩, ⟨false, true, 143, 23⟩, ⟨false, true, 144, 23⟩, ⟨false, true, 145, 23⟩, ⟨false, true, 146, 23⟩]⟩, -- 147: MasteringMetadata, :1125 with :644-655
  ⟨0x55B0, .master, false, [⟨true, true, 124, 23⟩, ⟨true, true, 125, 23⟩, ⟨false, true, 126, 23⟩, ⟨false, true, 127, 23⟩, ⟨false, true, 128, 23⟩, ⟨false, true, 129, 23⟩, ⟨true, true, 130, 23⟩, ⟨true, true, 131, 23⟩, ⟨true, true, 132, 23⟩, ⟨true, true, 133, 23⟩, ⟨true, true, 134, 23⟩, ⟨false, true, 135, 23⟩, ⟨false, true, 136, 23⟩, ⟨false, true, 147, 23⟩]⟩, -- 148: Colour, :1126 with :658-673
  ⟨0x7671, .uint, true, []⟩, -- 149: ProjectionType, :1127
  ⟨0x7672, .bin, false, []⟩, -- 150: ProjectionPrivate, :1128
  ⟨0x7673, .float, true, []⟩, -- 151: ProjectionPoseYaw, :1129
  ⟨0x7674, .float, true, []⟩, -- 152: ProjectionPosePitch, :1130
  ⟨0x7675, .float, true, []⟩, -- 153: ProjectionPoseRoll, :1131
  ⟨0x7670, .master, false, [⟨true, true, 149, 23⟩, ⟨false, true, 150, 23⟩, ⟨true, true, 151, 23⟩, ⟨true, true, 152, 23⟩, ⟨true, true, 153, 23⟩]⟩, -- 154: Projection, :1132 with :676-682
  ⟨0xE0, .master, false, [⟨true, true, 106, 17⟩, ⟨true, true, 107, 31⟩, ⟨true, true, 108, 19⟩, ⟨true, true, 109, 19⟩, ⟨false, true, 110, 108⟩, ⟨true, true, 111, 0⟩, ⟨true, true, 112, 0⟩, ⟨true, true, 113, 0⟩, ⟨true, true, 114, 0⟩, ⟨true, true, 115, 0⟩, ⟨true, true, 116, 0⟩, ⟨false, true, 117, 0⟩, ⟨false, true, 118, 0⟩, ⟨true, true, 119, 0⟩, ⟨false, true, 120, 127⟩, ⟨false, true, 121, 8⟩, ⟨false, true, 122, 127⟩, ⟨false, true, 123, 127⟩, ⟨false, true, 148, 23⟩, ⟨false, true, 154, 23⟩]⟩, -- 155: Video, :1133 with :685-706
  ⟨0xB5, .float, true, []⟩, -- 156: SamplingFrequency, :1134
  ⟨0x78B5, .float, false, []⟩, -- 157: OutputSamplingFrequency, :1135
  ⟨0x9F, .uint, true, []⟩, -- 158: Channels, :1136
  ⟨0x7D7B, .bin, false, []⟩, -- 159: ChannelPositions, :1137
  ⟨0x6264, .uint, false, []⟩, -- 160: BitDepth, :1138
  ⟨0x52F1, .uint, true, []⟩, -- 161: Emphasis, :1139
  ⟨0xE1, .master, false, [⟨true, true, 156, 0⟩, ⟨false, true, 157, 0⟩, ⟨true, true, 158, 0⟩, ⟨false, true, 159, 127⟩, ⟨false, true, 160, 0⟩, ⟨true, true, 161, 63⟩]⟩, -- 162: Audio, :1140 with :709-716
  ⟨0xE5, .uint, false, []⟩, -- 163: TrackPlaneUID, :1141
  ⟨0xE6, .uint, false, []⟩, -- 164: TrackPlaneType, :1142
  ⟨0xE4, .master, false, [⟨true, true, 163, 27⟩, ⟨true, true, 164, 27⟩]⟩, -- 165: TrackPlane, :1143 with :719-722
  ⟨0xE3, .master, false, [⟨true, false, 165, 27⟩]⟩, -- 166: TrackCombinePlanes, :1144 with :725-727
  ⟨0xED, .uint, false, []⟩, -- 167: TrackJoinUID, :1145
  ⟨0xE9, .master, false, [⟨true, false, 167, 27⟩]⟩, -- 168: TrackJoinBlocks, :1146 with :730-732
  ⟨0xE2, .master, false, [⟨false, true, 166, 27⟩, ⟨false, true, 168, 27⟩]⟩, -- 169: TrackOperation, :1147 with :735-738
  ⟨0xC0, .uint, false, []⟩, -- 170: TrickTrackUID, :1148
  ⟨0xC1, .uid, false, []⟩, -- 171: TrickTrackSegmentUID, :1149
  ⟨0xC6, .uint, true, []⟩, -- 172: TrickTrackFlag, :1150
  ⟨0xC7, .uint, false, []⟩, -- 173: TrickMasterTrackUID, :1151
  ⟨0xC4, .uid, false, []⟩, -- 174: TrickMasterTrackSegmentUID, :1152
  ⟨0x5031, .uint, true, []⟩, -- 175: ContentEncodingOrder, :1153
  ⟨0x5032, .uint, true, []⟩, -- 176: ContentEncodingScope, :1154
  ⟨0x5033, .uint, true, []⟩, -- 177: ContentEncodingType, :1155
  ⟨0x4254, .uint, true, []⟩, -- 178: ContentCompAlgo, :1156
  ⟨0x4255, .bin, false, []⟩, -- 179: ContentCompSettings, :1157
  ⟨0x5034, .master, false, [⟨true, true, 178, 8⟩, ⟨false, true, 179, 8⟩]⟩, -- 180: ContentCompression, :1158 with :741-744
  ⟨0x47E1, .uint, true, []⟩, -- 181: ContentEncAlgo, :1159
  ⟨0x47E2, .bin, false, []⟩, -- 182: ContentEncKeyID, :1160
  ⟨0x47E8, .uint, false, []⟩, -- 183: AESSettingsCipherMode, :1161
  ⟨0x47E7, .master, false, [⟨true, true, 183, 23⟩]⟩, -- 184: ContentEncAESSettings, :1162 with :747-749
  ⟨0x47E3, .bin, false, []⟩, -- 185: ContentSignature, :1163
  ⟨0x47E4, .bin, false, []⟩, -- 186: ContentSigKeyID, :1164
  ⟨0x47E5, .uint, true, []⟩, -- 187: ContentSigAlgo, :1165
  ⟨0x47E6, .uint, true, []⟩, -- 188: ContentSigHashAlgo, :1166
  ⟨0x5035, .master, false, [⟨true, true, 181, 0⟩, ⟨false, true, 182, 0⟩, ⟨false, true, 184, 23⟩, ⟨false, true, 185, 127⟩, ⟨false, true, 186, 127⟩, ⟨false, true, 187, 127⟩, ⟨false, true, 188, 127⟩]⟩, -- 189: ContentEncryption, :1167 with :752-760
  ⟨0x6240, .master, false, [⟨true, true, 175, 0⟩, ⟨true, true, 176, 0⟩, ⟨true, true, 177, 0⟩, ⟨false, true, 180, 8⟩, ⟨false, true, 189, 0⟩]⟩, -- 190: ContentEncoding, :1168 with :763-769
  ⟨0x6D80, .master, false, [⟨true, false, 190, 0⟩]⟩, -- 191: ContentEncodings, :1169 with :772-774
  ⟨0xAE, .master, false, [⟨true, true, 64, 0⟩, ⟨true, true, 65, 0⟩, ⟨true, true, 66, 0⟩, ⟨true, true, 67, 17⟩, ⟨true, true, 68, 0⟩, ⟨true, true, 69, 0⟩, ⟨false, true, 70, 31⟩, ⟨false, true, 71, 31⟩, ⟨false, true, 72, 31⟩, ⟨false, true, 73, 31⟩, ⟨false, true, 74, 31⟩, ⟨true, true, 75, 0⟩, ⟨true, true, 76, 127⟩, ⟨false, true, 77, 127⟩, ⟨false, true, 78, 0⟩, ⟨false, true, 79, 31⟩, ⟨true, true, 80, 104⟩, ⟨false, true, 81, 127⟩, ⟨true, true, 82, 8⟩, ⟨false, false, 87, 31⟩, ⟨false, true, 88, 0⟩, ⟨true, true, 89, 0⟩, ⟨false, true, 90, 31⟩, ⟨true, true, 91, 0⟩, ⟨false, true, 92, 0⟩, ⟨false, true, 93, 0⟩, ⟨false, true, 94, 104⟩, ⟨false, true, 95, 127⟩, ⟨false, false, 96, 127⟩, ⟨false, false, 97, 127⟩, ⟨true, true, 98, 127⟩, ⟨false, false, 99, 127⟩, ⟨true, true, 100, 23⟩, ⟨true, true, 101, 23⟩, ⟨false, false, 105, 8⟩, ⟨false, true, 155, 0⟩, ⟨false, true, 162, 0⟩, ⟨false, true, 169, 27⟩, ⟨false, true, 170, 111⟩, ⟨false, true, 171, 111⟩, ⟨false, true, 172, 111⟩, ⟨false, true, 173, 111⟩, ⟨false, true, 174, 111⟩, ⟨false, true, 191, 0⟩]⟩, -- 192: TrackEntry, :1170 with :777-822
  ⟨0x1654AE6B, .master, false, [⟨true, false, 192, 0⟩]⟩, -- 193: Tracks, :1171 with :825-827
  ⟨0xB3, .uint, false, []⟩, -- 194: CueTime, :1172
  ⟨0xF7, .uint, false, []⟩, -- 195: CueTrack, :1173
  ⟨0xF1, .uint, false, []⟩, -- 196: CueClusterPosition, :1174
  ⟨0xF0, .uint, false, []⟩, -- 197: CueRelativePosition, :1175
  ⟨0xB2, .uint, false, []⟩, -- 198: CueDuration, :1176
  ⟨0x5378, .uint, false, []⟩, -- 199: CueBlockNumber, :1177
  ⟨0xEA, .uint, true, []⟩, -- 200: CueCodecState, :1178
  ⟨0x96, .uint, false, []⟩, -- 201: CueRefTime, :1179
  ⟨0x97, .uint, false, []⟩, -- 202: CueRefCluster, :1180
  ⟨0x535F, .uint, true, []⟩, -- 203: CueRefNumber, :1181
  ⟨0xEB, .uint, true, []⟩, -- 204: CueRefCodecState, :1182
  ⟨0xDB, .master, false, [⟨true, true, 201, 25⟩, ⟨true, true, 202, 127⟩, ⟨false, true, 203, 127⟩, ⟨false, true, 204, 127⟩]⟩, -- 205: CueReference, :1183 with :830-835
  ⟨0xB7, .master, false, [⟨true, true, 195, 0⟩, ⟨true, true, 196, 0⟩, ⟨false, true, 197, 23⟩, ⟨false, true, 198, 23⟩, ⟨false, true, 199, 0⟩, ⟨true, true, 200, 25⟩, ⟨false, false, 205, 25⟩]⟩, -- 206: CueTrackPositions, :1184 with :838-846
  ⟨0xBB, .master, false, [⟨true, true, 194, 0⟩, ⟨true, false, 206, 0⟩]⟩, -- 207: CuePoint, :1185 with :849-852
  ⟨0x1C53BB6B, .master, false, [⟨true, false, 207, 0⟩]⟩, -- 208: Cues, :1186 with :855-857
  ⟨0x467E, .str, false, []⟩, -- 209: FileDescription, :1187
  ⟨0x466E, .str, false, []⟩, -- 210: FileName, :1188
  ⟨0x4660, .str, false, []⟩, -- 211: FileMediaType, :1189
  ⟨0x465C, .bin, false, []⟩, -- 212: FileData, :1190
  ⟨0x46AE, .uint, false, []⟩, -- 213: FileUID, :1191
  ⟨0x4675, .bin, false, []⟩, -- 214: FileReferral, :1192
  ⟨0x4661, .uint, false, []⟩, -- 215: FileUsedStartTime, :1193
  ⟨0x4662, .uint, false, []⟩, -- 216: FileUsedEndTime, :1194
  ⟨0x61A7, .master, false, [⟨false, true, 209, 8⟩, ⟨true, true, 210, 8⟩, ⟨true, true, 211, 8⟩, ⟨true, true, 212, 8⟩, ⟨true, true, 213, 8⟩, ⟨false, true, 214, 127⟩, ⟨false, true, 215, 111⟩, ⟨false, true, 216, 111⟩]⟩, -- 217: AttachedFile, :1195 with :860-869
  ⟨0x1941A469, .master, false, [⟨true, false, 217, 8⟩]⟩, -- 218: Attachments, :1196 with :872-874
  ⟨0x45BC, .uint, false, []⟩, -- 219: EditionUID, :1197
  ⟨0x45BD, .uint, true, []⟩, -- 220: EditionFlagHidden, :1198
  ⟨0x45DB, .uint, true, []⟩, -- 221: EditionFlagDefault, :1199
  ⟨0x45DD, .uint, true, []⟩, -- 222: EditionFlagOrdered, :1200
  ⟨0x4521, .str, false, []⟩, -- 223: EditionString, :1201
  ⟨0x45E4, .str, false, []⟩, -- 224: EditionLanguageIETF, :1202
  ⟨0x4520, .master, false, [⟨true, true, 223, 63⟩, ⟨false, false, 224, 63⟩]⟩, -- 225: EditionDisplay, :1203 with :877-880
  ⟨0x73C4, .uint, false, []⟩, -- 226: ChapterUID, :1204
  ⟨0x5654, .str, false, []⟩, -- 227: ChapterStringUID, :1205
  ⟨0x91, .uint, false, []⟩, -- 228: ChapterTimeStart, :1206
  ⟨0x92, .uint, false, []⟩, -- 229: ChapterTimeEnd, :1207
  ⟨0x98, .uint, true, []⟩, -- 230: ChapterFlagHidden, :1208
  ⟨0x4598, .uint, true, []⟩, -- 231: ChapterFlagEnabled, :1209
  ⟨0x6E67, .uid, false, []⟩, -- 232: ChapterSegmentUUID, :1210
  ⟨0x4588, .uint, false, []⟩, -- 233: ChapterSkipType, :1211
  ⟨0x6EBC, .uint, false, []⟩, -- 234: ChapterSegmentEditionUID, :1212
  ⟨0x63C3, .uint, false, []⟩, -- 235: ChapterPhysicalEquiv, :1213
  ⟨0x89, .uint, false, []⟩, -- 236: ChapterTrackNumber, :1214
  ⟨0x8F, .master, false, [⟨true, false, 236, 8⟩]⟩, -- 237: ChapterTrack, :1215 with :883-885
  ⟨0x85, .str, false, []⟩, -- 238: ChapString, :1216
  ⟨0x437C, .str, true, []⟩, -- 239: ChapLanguage, :1217
  ⟨0x437D, .str, false, []⟩, -- 240: ChapLanguageBCP47, :1218
  ⟨0x437E, .str, false, []⟩, -- 241: ChapCountry, :1219
  ⟨0x80, .master, false, [⟨true, true, 238, 0⟩, ⟨true, false, 239, 0⟩, ⟨false, false, 240, 31⟩, ⟨false, false, 241, 0⟩]⟩, -- 242: ChapterDisplay, :1220 with :888-893
  ⟨0x6955, .uint, true, []⟩, -- 243: ChapProcessCodecID, :1221
  ⟨0x450D, .bin, false, []⟩, -- 244: ChapProcessPrivate, :1222
  ⟨0x6922, .uint, false, []⟩, -- 245: ChapProcessTime, :1223
  ⟨0x6933, .bin, false, []⟩, -- 246: ChapProcessData, :1224
  ⟨0x6911, .master, false, [⟨true, true, 245, 8⟩, ⟨true, true, 246, 8⟩]⟩, -- 247: ChapProcessCommand, :1225 with :896-899
  ⟨0x6944, .master, false, [⟨true, true, 243, 8⟩, ⟨false, true, 244, 8⟩, ⟨false, false, 247, 8⟩]⟩, -- 248: ChapProcess, :1226 with :902-906
  ⟨0xB6, .master, false, [⟨false, false, 249, 0⟩, ⟨true, true, 226, 0⟩, ⟨false, true, 227, 19⟩, ⟨true, true, 228, 0⟩, ⟨false, true, 229, 0⟩, ⟨true, true, 230, 8⟩, ⟨true, true, 231, 8⟩, ⟨false, true, 232, 8⟩, ⟨false, true, 233, 63⟩, ⟨false, true, 234, 8⟩, ⟨false, true, 235, 8⟩, ⟨false, true, 237, 8⟩, ⟨false, false, 242, 0⟩, ⟨false, false, 248, 8⟩]⟩, -- 249: ChapterAtom, :1227 with :909-924
  ⟨0x45B9, .master, false, [⟨false, true, 219, 8⟩, ⟨true, true, 220, 8⟩, ⟨true, true, 221, 8⟩, ⟨true, true, 222, 8⟩, ⟨false, false, 225, 63⟩, ⟨true, false, 249, 0⟩]⟩, -- 250: EditionEntry, :1228 with :927-934
  ⟨0x1043A770, .master, false, [⟨true, false, 250, 0⟩]⟩, -- 251: Chapters, :1229 with :937-939
  ⟨0x68CA, .uint, true, []⟩, -- 252: TargetTypeValue, :1230
  ⟨0x63CA, .str, false, []⟩, -- 253: TargetType, :1231
  ⟨0x63C5, .uint, true, []⟩, -- 254: TagTrackUID, :1232
  ⟨0x63C9, .uint, true, []⟩, -- 255: TagEditionUID, :1233
  ⟨0x63C4, .uint, true, []⟩, -- 256: TagChapterUID, :1234
  ⟨0x63C6, .uint, true, []⟩, -- 257: TagAttachmentUID, :1235
  ⟨0x63C0, .master, false, [⟨true, true, 252, 0⟩, ⟨false, true, 253, 0⟩, ⟨false, false, 254, 0⟩, ⟨false, false, 255, 8⟩, ⟨false, false, 256, 8⟩, ⟨false, false, 257, 8⟩]⟩, -- 258: Targets, :1236 with :942-949
  ⟨0x45A3, .str, false, []⟩, -- 259: TagName, :1237
  ⟨0x447A, .str, true, []⟩, -- 260: TagLanguage, :1238
  ⟨0x447B, .str, false, []⟩, -- 261: TagLanguageBCP47, :1239
  ⟨0x4484, .uint, true, []⟩, -- 262: TagDefault, :1240
  ⟨0x44B4, .uint, true, []⟩, -- 263: TagDefaultBogus, :1241
  ⟨0x4487, .str, false, []⟩, -- 264: TagString, :1242
  ⟨0x4485, .bin, false, []⟩, -- 265: TagBinary, :1243
  ⟨0x67C8, .master, false, [⟨false, false, 266, 0⟩, ⟨true, true, 259, 0⟩, ⟨true, true, 260, 0⟩, ⟨false, true, 261, 31⟩, ⟨true, true, 262, 0⟩, ⟨true, true, 263, 127⟩, ⟨false, true, 264, 0⟩, ⟨false, true, 265, 0⟩]⟩, -- 266: SimpleTag, :1244 with :952-961
  ⟨0x7373, .master, false, [⟨true, true, 258, 0⟩, ⟨true, false, 266, 0⟩]⟩, -- 267: Tag, :1245 with :964-967
  ⟨0x1254C367, .master, false, [⟨true, false, 267, 0⟩]⟩, -- 268: Tags, :1246 with :970-972
  ⟨0x18538067, .master, false, [⟨false, false, 14, 0⟩, ⟨true, false, 32, 0⟩, ⟨false, false, 63, 0⟩, ⟨false, false, 193, 0⟩, ⟨false, true, 208, 0⟩, ⟨false, true, 218, 8⟩, ⟨false, false, 251, 0⟩, ⟨false, false, 268, 0⟩]⟩] -- 269: Segment, :1247 with :975-984

/-- The schema of Matroska; rows that do not exist are dummies (`EBML_ContextDummy`,
libebml2/ebmlmain.c:26). -/
def mkv : Schema := ⟨fun r => mkvTable.getD r ⟨0xFF, .dummy, false, []⟩⟩

end Verif.Ebml.Master
