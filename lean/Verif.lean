import Verif.Bytes
import Verif.Stream
import Verif.Http1.Model
import Verif.Http1.Frame
import Verif.Http1.FrameStep
import Verif.Http1.FrameRun
import Verif.Http1.Events
import Verif.Http1.Spec
import Verif.Http1.Client
import Verif.Http1.Bits
import Verif.Http1.Sim
import Verif.Http1.SimBase
import Verif.Http1.SimVer
import Verif.Http1.SimStart
import Verif.Http1.SimHdr
import Verif.Http1.SimDetect
import Verif.Http1.SimChunk
import Verif.Http1.SimMp
import Verif.Http1.SimUrl
import Verif.Http1.SimRun
import Verif.Http1.SimCall
import Verif.Http1.Pause
import Verif.Http1.Call
import Verif.Http1.Blame
import Verif.Http1.Drive
import Verif.Http1.Safe
import Verif.Http1.Mode
import Verif.Http1.Upper
import Verif.Http1.Reach
import Verif.Http1.Start
import Verif.Http1.Shift
import Verif.Http1.Yes
import Verif.Http1.Feed
import Verif.Http1.History
import Verif.Http1.Twin
import Verif.Props.Http1Calls
import Verif.Props.Http1Slicing
import Verif.ByteSpec
import Verif.Util.Decode
import Verif.Util.Query
import Verif.Util.Field
import Verif.Util.Collect
import Verif.Util.DecodeSpec
import Verif.Util.DecodeLemmas
import Verif.Util.QuerySpec
import Verif.Util.QueryLemmas
import Verif.Util.QueryRun
import Verif.Util.FieldSpec
import Verif.Util.FieldLemmas
import Verif.Util.FieldRun
import Verif.Props.Decode
import Verif.Props.ByteClasses
import Verif.Props.Query
import Verif.Props.Field
import Verif.Http1.AnyHead
import Verif.Http1.HeadSpec
import Verif.Http1.Emit
import Verif.Http1.HeadOrder
import Verif.Http1.HeadNum
import Verif.Http1.MessageSpec
import Verif.Http1.Runs
import Verif.Props.Http1Head
import Verif.Props.Http1RoundTrip
import Verif.Http1.ChunkSpec
import Verif.Http1.RunsChunk
import Verif.Http1.ChunkInv
import Verif.Props.Http1Chunked
import Verif.Http1.UrlSpec
import Verif.Http1.RunsUrl
import Verif.Props.Http1Url
import Verif.Http2.Model
import Verif.Http2.Client
import Verif.Http2.Spec
import Verif.Http2.Bits
import Verif.Http2.Sim
import Verif.Http2.Steps
import Verif.Http2.Rel
import Verif.Http2.Total
import Verif.Http2.FrameSpec
import Verif.Http2.RunsFrame
import Verif.Http2.RunsFrames
import Verif.Http2.Consts
import Verif.Props.Http2Frames
import Verif.Props.Http2Calls
import Verif.Props.Http2Consts
import Verif.Util.HexSpec
import Verif.Util.ByteLemmas
import Verif.Http1.MpSpec
import Verif.Http1.RunsMp
import Verif.Http1.MpInv
import Verif.Props.Http1Multipart
import Verif.Http1.LooseSpec
import Verif.Http1.Inv
import Verif.Http1.RunsLoose
import Verif.Http1.InvChunk
import Verif.Http1.UrlLoose
import Verif.Http1.InvUrl
import Verif.Http1.Viable
import Verif.Props.Http1Accept
import Verif.Props.Http1AcceptChunked
import Verif.Props.Http1AcceptUrl
import Verif.Props.Http1Earliest
import Verif.Http1.Progress
import Verif.Props.Http1Progress
import Verif.Util.FieldLooseSpec
import Verif.Util.FieldLoose
import Verif.Util.QueryRejectSpec
import Verif.Util.QueryReject
import Verif.Props.FieldAccept
import Verif.Http2.Pair
import Verif.Http2.Feed
import Verif.Props.Http2Pauses
import Verif.Http2.Long
import Verif.Http2.Drive
import Verif.Http2.Cuts
import Verif.Http1.Lengths
import Verif.Http1.MpLooseSpec
import Verif.Http1.InvMp
import Verif.Http1.ViableMp
import Verif.Props.Http1AcceptMultipart
import Verif.Http2.Stuck
import Verif.Props.Http2Silent
import Verif.Http2.AnySpec
import Verif.Http2.RunsAny
import Verif.Props.Http2Any
import Verif.Http1.DetectSpec
import Verif.Http1.Misread
import Verif.Props.Http1Detect
import Verif.Http1.ConnSpec
import Verif.Props.Http1Conn
import Verif.Http1.ReadSpec
import Verif.Http1.RunsRead
import Verif.Http1.RunsReadBody
import Verif.Props.Http1Read
import Verif.Http2.Slices
import Verif.Http2.CutSpec
import Verif.Http2.Exact
import Verif.Props.Http2Slices
import Verif.Util.ReadSpec
import Verif.Util.Utf8
import Verif.Props.Iterators
import Verif.Props.FormQuery
import Verif.Conformance.Http1
import Verif.Conformance.Http2
import Verif.Conformance.Util
import Verif.Conformance.Integration
import Verif.Http1.More
import Verif.Props.Http1Final
import Verif.Props.Http2Final
import Verif.Http1.UrlCount
import Verif.Http1.ProgramSpec
import Verif.Http1.HeadProgram
import Verif.Http1.HeadProgramRun
import Verif.Props.Http1Programs
import Verif.Http1.PauseSpec
import Verif.Http1.Stops
import Verif.Props.Http1Pauses
import Verif.Http1.MultipartProgram
import Verif.Http1.MultipartProgramRun
import Verif.Props.Http1Form
import Verif.Http1.ChunkProgram
import Verif.Http1.ChunkProgramRun
import Verif.Props.Http1ChunkProgram
import Verif.Http1.UrlProgram
import Verif.Http1.UrlProgramRun
import Verif.Props.Http1UrlProgram
import Verif.Format
import Verif.FormatSpec
import Verif.FormatLemmas
import Verif.Props.Messages
import Verif.Http2.Release
import Verif.Http2.ReleaseLemmas
import Verif.Http2.ReleaseSwallow
import Verif.Props.Http2Release
import Verif.Http1.OrderSpec
import Verif.Http1.BodyOrder
import Verif.Http1.Ask
import Verif.Props.Http1Order
import Verif.Http1.JoinSpec
import Verif.Http1.JoinRun
import Verif.Http1.AnyRun
import Verif.Http1.GlueSpec
import Verif.Http1.GlueRun
import Verif.Http1.AnyParts
import Verif.Props.Http1AnyHead
import Verif.Props.Http1PausesAny
import Verif.Props.Http1AnyBody
import Verif.Props.Http1AnyForm
import Verif.Http1.AnyShort
import Verif.Props.Http1ShortHeads
import Verif.Http2.ReleaseSpec
import Verif.Http2.ReleaseEnds
import Verif.Http2.ReleaseAny
import Verif.Http2.ReleaseBody
import Verif.Http2.ReleaseFrame
import Verif.Http2.ReleaseFollows
import Verif.Props.Http2ReleaseAny
import Verif.Http2.ReleaseDeep
import Verif.Props.Http1Blame
import Verif.Http1.HeadTestProgram
import Verif.Props.Http1HeadTest
import Verif.Http1.CostSpec
import Verif.Http1.Cost
import Verif.Props.Http1Cost
import Verif.Http2.CostSpec
import Verif.Http2.Cost
import Verif.Props.Http2Cost
import Verif.Util.CostSpec
import Verif.Util.Cost
import Verif.Props.IteratorCost
import Verif.Http2.OrderSpec
import Verif.Http2.Order
import Verif.Props.Http2Order
import Verif.Http1.EndSpec
import Verif.Http1.End
import Verif.Props.Http1End
import Verif.Http1.ForwardSpec
import Verif.Http1.Forward
import Verif.Props.Http1Forward
import Verif.Http1.ForwardBody
import Verif.Http1.ForwardParts
import Verif.Props.Http1ForwardBody
import Verif.Http2.ForwardSpec
import Verif.Http2.Forward
import Verif.Http2.ForwardFrames
import Verif.Props.Http2Forward
import Verif.Http2.ForwardCost
import Verif.Http2.ReleaseCost
import Verif.Util.ForwardSpec
import Verif.Util.Forward
import Verif.Props.QueryForward
import Verif.Http1.ForwardConnSpec
import Verif.Http1.ForwardConn
import Verif.Props.Http1ForwardConn
import Verif.Util.FieldForwardSpec
import Verif.Props.FieldForward
import Verif.Http1.FramingSpec
import Verif.Http1.Framing
import Verif.Props.Http1Framing
import Verif.Http1.MpFramingSpec
import Verif.Http1.MpFraming
import Verif.Props.Http1MpFraming
import Verif.Http2.FramingSpec
import Verif.Http2.Framing
import Verif.Props.Http2Framing
import Verif.Util.FormSplitSpec
import Verif.Util.FormSplit
import Verif.Props.FormSplit
import Verif.Http1.HeadScanSpec
import Verif.Http1.HeadScan
import Verif.Props.Http1HeadScan
import Verif.Util.FieldItemsSpec
import Verif.Util.FieldItems
import Verif.Props.FieldItems
import Verif.Http1.ConnScanSpec
import Verif.Http1.ConnScan
import Verif.Props.Http1ConnScan
import Verif.Http1.ConnReadSpec
import Verif.Props.Http1ConnRead
import Verif.Props.Http1ConnFinal
import Verif.Http1.Rounds
import Verif.Http2.Rounds
import Verif.Props.Http1Rounds
import Verif.Props.Http2Rounds
import Verif.Props.Http2ReleaseRounds
import Verif.Props.Http2ReleaseProgress
import Verif.Http2.ReleaseFeed
import Verif.Http2.ReleaseGood
import Verif.Props.Http2ReleasePauses
import Verif.Http2.PieceSpec
import Verif.Http2.Adds
import Verif.Props.Http2Pieces
import Verif.Props.Http2ReleaseFinal
import Verif.Props.Http2Between
import Verif.Http1.AnyBoundary
