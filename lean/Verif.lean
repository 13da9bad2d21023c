import Verif.Props.Vint
import Verif.Props.Number
import Verif.Props.Crc
import Verif.Props.Tree
import Verif.Props.Scan
import Verif.Props.Parse
import Verif.Props.Load
import Verif.Props.Block
import Verif.Props.Time
import Verif.Props.Order
import Verif.Props.Str
import Verif.Props.Array
import Verif.Props.Sort
import Verif.Props.Stream
import Verif.Props.Node
import Verif.Props.Conv
import Verif.Props.Lzo
import Verif.Props.Path
import Verif.Props.Printf
import Verif.Props.Master
import Verif.Props.MkvSchema
import Verif.Props.Life
import Verif.Props.Layout
import Verif.Props.Remux
import Verif.Props.RemuxOrder
import Verif.Props.Text
import Verif.Props.Seek
import Verif.Props.Copy
import Verif.Props.NodeData
import Verif.Props.Notify
import Verif.Props.Duration
import Verif.Props.Header
import Verif.Props.Cue
import Verif.Props.Bitwise
import Verif.Props.Validator
import Verif.Props.ValidatorChecks
import Verif.Props.ValidatorBlocks
import Verif.Props.ValidatorFile
import Verif.Props.Document
import Verif.Props.Private
import Verif.Props.Tracks
import Verif.Props.TracksLoop
import Verif.Props.TracksEnd
import Verif.Mkclean.Link
import Verif.Props.Link
import Verif.Core.Url
import Verif.Core.UrlLemmas
import Verif.Props.Url
import Verif.Props.UrlNames
import Verif.Props.UrlRel
import Verif.Props.Bzip
import Verif.Props.Zip
import Verif.Vorbis.Reader
import Verif.Vorbis.Book
import Verif.Vorbis.Backends
import Verif.Vorbis.Header
import Verif.Vorbis.Private
import Verif.Vorbis.Spec
import Verif.Vorbis.ReaderLemmas
import Verif.Vorbis.BookLemmas
import Verif.Vorbis.BackendLemmas
import Verif.Vorbis.HeaderLemmas
import Verif.Vorbis.BookTrip
import Verif.Vorbis.HeaderTrip
import Verif.Vorbis.PrivateLemmas
import Verif.Props.Vorbis
import Verif.Mkclean.Output
import Verif.Mkclean.Setup
import Verif.Mkclean.Encoding
import Verif.Mkclean.Sections
import Verif.Mkclean.AppName
import Verif.Mkclean.OutputLemmas
import Verif.Props.Output
import Verif.Props.Played
import Verif.Props.Scanf
import Verif.Props.Setup
import Verif.Props.Encoding
import Verif.Props.Sections
import Verif.Props.AppName
import Verif.Props.Classes
import Verif.Props.Refs
import Verif.Props.NodeLife
import Verif.Props.ScanFirst
import Verif.Props.Mkparts
import Verif.Props.Base64
import Verif.Props.Frac
import Verif.Props.FracText
import Verif.Mkclean.Collect
import Verif.Props.Collect
import Verif.Props.RemuxFile
import Verif.Mkvalidator.Neat
import Verif.Props.Accepted
import Verif.Props.AcceptedCues
import Verif.Mkclean.LiveOut
import Verif.Props.LiveOut
import Verif.Mkclean.Fields3D
import Verif.Props.Fields3D
import Verif.Core.Xml
import Verif.Props.Xml
import Verif.Core.DoubleFrac
import Verif.Props.DoubleFrac
import Verif.Mkv.KeyFlags
import Verif.Props.KeyFlags
import Verif.Core.FileLibc
import Verif.Props.FileLibc
import Verif.Mkclean.BlockTimes
import Verif.Props.BlockTimes
import Verif.Ebml.LoadSiblings
import Verif.Props.LoadSiblings
import Verif.Ebml.WalkLive
import Verif.Props.WalkLive
import Verif.Ebml.Damage
import Verif.Props.Damage
import Verif.Ebml.ForceSize
import Verif.Props.ForceSize
import Verif.Core.Open
import Verif.Props.Open
import Verif.Mkvalidator.Args
import Verif.Props.Args
import Verif.Props.Show
import Verif.Core.Attr
import Verif.Core.AttrLemmas
import Verif.Props.Attr
import Verif.Core.TreeFind
import Verif.Props.TreeFind
import Verif.Core.NodeCopy
import Verif.Props.NodeCopy
import Verif.Core.Params
import Verif.Props.Params
import Verif.Core.Toggle
import Verif.Props.Toggle
import Verif.Core.MasterOps
import Verif.Props.MasterOps
import Verif.Mkclean.ClusterData
import Verif.Props.ClusterData
import Verif.Core.AttrNames
import Verif.Props.AttrNames
import Verif.Core.AttrEnum
import Verif.Props.AttrEnum
import Verif.Core.TickText
import Verif.Props.TickText
import Verif.Core.Hibernate
import Verif.Props.Hibernate
import Verif.Props.Probe
import Verif.Core.ClassTables
import Verif.Props.ClassTables
import Verif.Core.Singletons
import Verif.Props.Singletons
import Verif.Core.FindClass
import Verif.Props.FindClass
import Verif.Core.RateText
import Verif.Props.RateText
import Verif.Core.DataType
import Verif.Props.DataType
import Verif.Core.ColorText
import Verif.Props.ColorText
import Verif.Core.ColorRead
import Verif.Props.ColorRead
import Verif.Core.FourccRead
import Verif.Props.FourccRead
