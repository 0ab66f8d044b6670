import Verif.Go.Basic
import Verif.Enc.Prim
import Verif.Enc.Reader
import Verif.Enc.PrimLemmas
import Verif.Enc.PrimProps
import Verif.Enc.WireReader
import Verif.Enc.ReaderClient
import Verif.Enc.ReaderRun
import Verif.Enc.ReaderProps
import Verif.Enc.RangeProps
import Verif.Enc.Name
import Verif.Enc.NameLemmas
import Verif.Enc.OrderLemmas
import Verif.Enc.NameProps
import Verif.Enc.TextLemmas
import Verif.Enc.TextProps
import Verif.Enc.MoreProps
import Verif.Codec.Schema
import Verif.Codec.Spec
import Verif.Codec.EncLemmas
import Verif.Codec.ParseLemmas
import Verif.Codec.TotalLemmas
import Verif.Codec.Schemas
import Verif.Codec.Props
import Verif.Codec.Map
import Verif.Codec.MapProps
import Verif.Codec.Library
import Verif.Codec.LibraryProps
import Verif.Codec.Front
import Verif.Codec.Source
import Verif.Codec.FrontLemmas
import Verif.Codec.FrontProps
import Verif.Codec.Emit
import Verif.Codec.Run
import Verif.Codec.Stands
import Verif.Codec.RunLemmas
import Verif.Codec.RunReady
import Verif.Codec.RunProps
import Verif.Codec.GoText
import Verif.Codec.GeneratedSpec
import Verif.Codec.GeneratedMgmtA
import Verif.Codec.GeneratedMgmtB
import Verif.Codec.GeneratedSync
import Verif.Codec.GeneratedCert
import Verif.Codec.GeneratedSvs
import Verif.Codec.GeneratedRdr
import Verif.Codec.GeneratedCrdt
import Verif.Codec.GeneratedProps
import Verif.Codec.EmitParse
import Verif.Codec.RunParse
import Verif.Codec.ParseSim
import Verif.Codec.ParseFields
import Verif.Codec.ParseModels
import Verif.Codec.ParseLoop
import Verif.Codec.ParseProps
import Verif.Codec.GoTextParse
import Verif.Codec.ParsersSpec
import Verif.Codec.ParsersMgmtA
import Verif.Codec.ParsersMgmtB
import Verif.Codec.ParsersSync
import Verif.Codec.ParsersCert
import Verif.Codec.ParsersSvs
import Verif.Codec.ParsersRdr
import Verif.Codec.ParsersCrdt
import Verif.Codec.ParsersProps
import Verif.Codec.Dict
import Verif.Codec.DictProps
import Verif.Engine.Trie
import Verif.Engine.TrieLemmas
import Verif.Engine.Fib
import Verif.Engine.FibLemmas
import Verif.Engine.FibProps
import Verif.Engine.TrieProps
import Verif.Engine.Pit
import Verif.Engine.PitLemmas
import Verif.Engine.PitSteps
import Verif.Engine.PitProps
import Verif.Util.Heap
import Verif.Util.HeapLemmas
import Verif.Util.HeapProps
import Verif.Sync.Svs
import Verif.Sync.SvsLemmas
import Verif.Sync.SvsProps
import Verif.Engine.DummyTimer
import Verif.Engine.DummyTimerProps
import Verif.Engine.Stream
import Verif.Engine.StreamProps
import Verif.Packet.Parse
import Verif.Packet.OrdLemmas
import Verif.Packet.Spec
import Verif.Packet.DataLemmas
import Verif.Packet.InterestLemmas
import Verif.Packet.InterestParse
import Verif.Packet.Total
import Verif.Packet.PacketLemmas
import Verif.Packet.Props
import Verif.Packet.ExactLemmas
import Verif.Packet.ExactProps
import Verif.Packet.DigestProps
import Verif.Packet.Local
import Verif.Packet.SignedLemmas
import Verif.Packet.SignedProps
import Verif.Packet.Encode
import Verif.Packet.EncodeLemmas
import Verif.Packet.Make
import Verif.Packet.MakeLemmas
import Verif.Packet.MakeData
import Verif.Packet.MakeProps
import Verif.Packet.MakeInterest
import Verif.Packet.MakeInterestProps
import Verif.Packet.CutProps
import Verif.Engine.Dispatch
import Verif.Engine.DispatchProps
import Verif.Engine.Mgmt
import Verif.Engine.MgmtProps
import Verif.Schema.Tree
import Verif.Schema.TreeProps
import Verif.Schema.Build
import Verif.Schema.BuildProps
import Verif.Schema.Event
import Verif.Schema.EventProps
import Verif.Schema.Express
import Verif.Schema.ExpressProps
import Verif.Schema.MemStore
import Verif.Schema.MemStoreProps
import Verif.Schema.Rdr
import Verif.Schema.RdrProps
import Verif.Schema.SvsNode
import Verif.Schema.SvsNodeProps
import Verif.Security.Signers
import Verif.Security.SignersProps
import Verif.Crdt.Order
import Verif.Crdt.Doc
import Verif.Crdt.ScanLemmas
import Verif.Crdt.InsertLemmas
import Verif.Crdt.World
import Verif.Crdt.WorldLemmas
import Verif.Crdt.DocProps
import Verif.Schema.Policies
import Verif.Schema.PoliciesProps
import Verif.Schema.DemoSec
import Verif.Schema.DemoSecProps
import Verif.Schema.Attr
import Verif.Schema.AttrProps
import Verif.Schema.Object
import Verif.Schema.ObjectProps
import Verif.Crdt.EditProps
import Verif.Sync.AnswerProps
import Verif.Packet.BindProps
import Verif.Go.Slice
import Verif.Enc.FullNameProps
import Verif.Schema.AttachProps
import Verif.Sync.LifeProps
import Verif.Sync.Timers
import Verif.Sync.TimersProps
import Verif.Util.Log
import Verif.Util.LogProps
import Verif.Schema.LeafProps
import Verif.Engine.Face
import Verif.Engine.FaceProps
import Verif.Security.Pib
import Verif.Security.PibProps
import Verif.Engine.Locks
import Verif.Engine.LocksProps
import Verif.Schema.SvsLife
import Verif.Schema.SvsLifeProps
import Verif.Engine.Exchange
import Verif.Engine.ExchangeLemmas
import Verif.Engine.ExchangeProps
import Verif.Schema.Hooks
import Verif.Schema.HooksProps
import Verif.Schema.Fetch
import Verif.Schema.FetchProps
import Verif.Schema.Call
import Verif.Schema.CallProps
import Verif.Codec.EmitNoCopy
import Verif.Codec.RunNoCopy
import Verif.Codec.NoCopyLemmas
import Verif.Codec.NoCopyProps
import Verif.Codec.GeneratedNoCopy
import Verif.Codec.EmitSigned
import Verif.Codec.RunSigned
import Verif.Codec.SignedRunLemmas
import Verif.Codec.SignedStages
import Verif.Codec.SignedRunProps
import Verif.Codec.GeneratedSigned
import Verif.Codec.InterestRun
import Verif.Codec.InterestProps
import Verif.Codec.GeneratedInterest
import Verif.Codec.EmitOuter
import Verif.Codec.RunOuter
import Verif.Codec.OuterLemmas
import Verif.Codec.OuterRun
import Verif.Codec.OuterWrap
import Verif.Codec.OuterProps
import Verif.Codec.OuterPlain
import Verif.Codec.GeneratedOuter
import Verif.Codec.AgreeProps
import Verif.Codec.OrderedProps
import Verif.Codec.SpecialProps
import Verif.Codec.PacketRunProps
import Verif.Codec.PacketRead
import Verif.Codec.PacketTrip
