import Verif.Axioms
import Verif.Lemmas.Alias
import Verif.Lemmas.Apply
import Verif.Lemmas.ApplyDiff
import Verif.Lemmas.ApplyEdit
import Verif.Lemmas.ApplyStructs
import Verif.Lemmas.Base64
import Verif.Lemmas.Bits
import Verif.Lemmas.Bytes
import Verif.Lemmas.ClientConn
import Verif.Lemmas.ClientSteps
import Verif.Lemmas.Codec
import Verif.Lemmas.Comments
import Verif.Lemmas.Compile
import Verif.Lemmas.Conc
import Verif.Lemmas.Deadline
import Verif.Lemmas.DecodedList
import Verif.Lemmas.Descr
import Verif.Lemmas.Diff
import Verif.Lemmas.Externals
import Verif.Lemmas.Framing
import Verif.Lemmas.GenGo
import Verif.Lemmas.Get
import Verif.Lemmas.GoStr
import Verif.Lemmas.Header
import Verif.Lemmas.Hostile
import Verif.Lemmas.HttpAlone
import Verif.Lemmas.HttpClient
import Verif.Lemmas.HttpExec
import Verif.Lemmas.Idl
import Verif.Lemmas.IdlTypes
import Verif.Lemmas.IsSet
import Verif.Lemmas.JsonBack
import Verif.Lemmas.JsonForm
import Verif.Lemmas.JsonRead
import Verif.Lemmas.JsonStr
import Verif.Lemmas.JsonWrite
import Verif.Lemmas.Limits
import Verif.Lemmas.ListCache
import Verif.Lemmas.Lists
import Verif.Lemmas.Look
import Verif.Lemmas.MapCache
import Verif.Lemmas.MapCodec
import Verif.Lemmas.MapDecode
import Verif.Lemmas.Maps
import Verif.Lemmas.Metadata
import Verif.Lemmas.ModFile
import Verif.Lemmas.NetSteps
import Verif.Lemmas.Pack
import Verif.Lemmas.Parse
import Verif.Lemmas.Patch
import Verif.Lemmas.PoolSteps
import Verif.Lemmas.RawConv
import Verif.Lemmas.Record
import Verif.Lemmas.Recording
import Verif.Lemmas.Reflect
import Verif.Lemmas.Release
import Verif.Lemmas.Rep
import Verif.Lemmas.Replay
import Verif.Lemmas.RpcReflect
import Verif.Lemmas.Same
import Verif.Lemmas.Segment
import Verif.Lemmas.Server
import Verif.Lemmas.ServerConn
import Verif.Lemmas.ServerSteps
import Verif.Lemmas.StructList
import Verif.Lemmas.TextBack
import Verif.Lemmas.TextComment
import Verif.Lemmas.TextForm
import Verif.Lemmas.TextLine
import Verif.Lemmas.TextMap
import Verif.Lemmas.TextNum
import Verif.Lemmas.TextQuoted
import Verif.Lemmas.TextRead
import Verif.Lemmas.TextStr
import Verif.Lemmas.TextStructs
import Verif.Lemmas.TextWrite
import Verif.Lemmas.Token
import Verif.Lemmas.TokenIngest
import Verif.Lemmas.TokenMap
import Verif.Lemmas.TokenMono
import Verif.Lemmas.TokenRead
import Verif.Lemmas.TokenSkip
import Verif.Lemmas.TokenView
import Verif.Lemmas.TokenYield
import Verif.Lemmas.Transport
import Verif.Lemmas.TransportClose
import Verif.Lemmas.Unpack
import Verif.Lemmas.Vendor
import Verif.Lemmas.VendorDir
import Verif.Lemmas.VendorGraph
import Verif.Lemmas.VendorRead
import Verif.Lemmas.View
import Verif.Lemmas.Wire
import Verif.Lemmas.Within
import Verif.Model.Alias
import Verif.Model.Any
import Verif.Model.Api
import Verif.Model.Attempts
import Verif.Model.Balancer
import Verif.Model.Bits
import Verif.Model.Bytes
import Verif.Model.BytesList
import Verif.Model.Cas
import Verif.Model.Chain
import Verif.Model.CliSend
import Verif.Model.ClientConn
import Verif.Model.Comments
import Verif.Model.Compile
import Verif.Model.Compress
import Verif.Model.Conc
import Verif.Model.Credentials
import Verif.Model.Deadline
import Verif.Model.Descr
import Verif.Model.ErrCode
import Verif.Model.Externals
import Verif.Model.Fetch
import Verif.Model.Framing
import Verif.Model.GenGo
import Verif.Model.GenImports
import Verif.Model.GenMap
import Verif.Model.Get
import Verif.Model.GoStr
import Verif.Model.Header
import Verif.Model.Health
import Verif.Model.Hedge
import Verif.Model.HttpClient
import Verif.Model.HttpServer
import Verif.Model.Idl
import Verif.Model.ImportBlock
import Verif.Model.Init
import Verif.Model.Iter
import Verif.Model.Json
import Verif.Model.KeepAlive
import Verif.Model.Limits
import Verif.Model.Link
import Verif.Model.ListCache
import Verif.Model.Listener
import Verif.Model.Lists
import Verif.Model.Look
import Verif.Model.MapCache
import Verif.Model.Maps
import Verif.Model.Metadata
import Verif.Model.MetadataArgs
import Verif.Model.ModFile
import Verif.Model.Opening
import Verif.Model.Options
import Verif.Model.Otel
import Verif.Model.Pack
import Verif.Model.Packing
import Verif.Model.Patch
import Verif.Model.Pool
import Verif.Model.Prepare
import Verif.Model.RawConv
import Verif.Model.Recording
import Verif.Model.Recycle
import Verif.Model.Reflect
import Verif.Model.ReflectItems
import Verif.Model.Registry
import Verif.Model.Release
import Verif.Model.Res
import Verif.Model.Resolve
import Verif.Model.Resolver
import Verif.Model.Retry
import Verif.Model.RpcReflect
import Verif.Model.Server
import Verif.Model.ServerConn
import Verif.Model.ServiceConfig
import Verif.Model.SrvStream
import Verif.Model.Struct
import Verif.Model.StructList
import Verif.Model.SyncClient
import Verif.Model.Text
import Verif.Model.Token
import Verif.Model.TokenYield
import Verif.Model.Transport
import Verif.Model.Utf8
import Verif.Model.Validate
import Verif.Model.Vcs
import Verif.Model.Vendor
import Verif.Model.VendorDir
import Verif.Model.Writer
import Verif.Props.Alias
import Verif.Props.Apply
import Verif.Props.ApplyDiff
import Verif.Props.Attempts
import Verif.Props.Balancer
import Verif.Props.Bits
import Verif.Props.BytesList
import Verif.Props.Cas
import Verif.Props.Chain
import Verif.Props.CliSend
import Verif.Props.ClientConn
import Verif.Props.ClientStream
import Verif.Props.Comments
import Verif.Props.Compile
import Verif.Props.CompileOk
import Verif.Props.Compress
import Verif.Props.Conc
import Verif.Props.Credentials
import Verif.Props.Deadline
import Verif.Props.Descr
import Verif.Props.Diff
import Verif.Props.ErrCode
import Verif.Props.Externals
import Verif.Props.Fetch
import Verif.Props.Framing
import Verif.Props.GenGo
import Verif.Props.GenImports
import Verif.Props.GenMap
import Verif.Props.Get
import Verif.Props.GetOk
import Verif.Props.Header
import Verif.Props.Health
import Verif.Props.Hedge
import Verif.Props.Hostile
import Verif.Props.HttpClient
import Verif.Props.HttpServer
import Verif.Props.Idl
import Verif.Props.IdlTypes
import Verif.Props.ImportBlock
import Verif.Props.Init
import Verif.Props.IsSet
import Verif.Props.Iter
import Verif.Props.Json
import Verif.Props.JsonBack
import Verif.Props.JsonBytes
import Verif.Props.JsonStr
import Verif.Props.KeepAlive
import Verif.Props.Large
import Verif.Props.LargeLists
import Verif.Props.Limits
import Verif.Props.Link
import Verif.Props.ListCache
import Verif.Props.Listener
import Verif.Props.Lists
import Verif.Props.Locate
import Verif.Props.Look
import Verif.Props.MapAny
import Verif.Props.MapCache
import Verif.Props.Maps
import Verif.Props.Metadata
import Verif.Props.MetadataArgs
import Verif.Props.ModFile
import Verif.Props.ModRefuse
import Verif.Props.ModWrite
import Verif.Props.Opening
import Verif.Props.Options
import Verif.Props.Otel
import Verif.Props.Pack
import Verif.Props.Packing
import Verif.Props.Patch
import Verif.Props.PatchRefuse
import Verif.Props.Pool
import Verif.Props.Prepare
import Verif.Props.RawConv
import Verif.Props.Recycle
import Verif.Props.Reflect
import Verif.Props.ReflectItems
import Verif.Props.ReflectList
import Verif.Props.ReflectMore
import Verif.Props.Registry
import Verif.Props.Release
import Verif.Props.Replay
import Verif.Props.Resolve
import Verif.Props.Resolver
import Verif.Props.Retry
import Verif.Props.RpcList
import Verif.Props.RpcReflect
import Verif.Props.Server
import Verif.Props.ServerCancel
import Verif.Props.ServerConn
import Verif.Props.ServerFrames
import Verif.Props.ServerLimits
import Verif.Props.ServiceConfig
import Verif.Props.SrvStream
import Verif.Props.Struct
import Verif.Props.StructList
import Verif.Props.SyncClient
import Verif.Props.Text
import Verif.Props.TextForm
import Verif.Props.Token
import Verif.Props.Transport
import Verif.Props.Validate
import Verif.Props.Vcs
import Verif.Props.Vendor
import Verif.Props.VendorDir
import Verif.Props.Writer
import Verif.Spec.Base64
import Verif.Spec.Comments
import Verif.Spec.Conc
import Verif.Spec.Deadline
import Verif.Spec.Fetch
import Verif.Spec.GenGo
import Verif.Spec.GenImports
import Verif.Spec.GenMap
import Verif.Spec.Graph
import Verif.Spec.Idl
import Verif.Spec.ImportBlock
import Verif.Spec.Init
import Verif.Spec.IsSet
import Verif.Spec.Json
import Verif.Spec.JsonStr
import Verif.Spec.KeepAlive
import Verif.Spec.Limits
import Verif.Spec.Link
import Verif.Spec.ListCache
import Verif.Spec.Look
import Verif.Spec.MapCache
import Verif.Spec.Maps
import Verif.Spec.ModFile
import Verif.Spec.Opening
import Verif.Spec.Options
import Verif.Spec.Patch
import Verif.Spec.Prepare
import Verif.Spec.Range
import Verif.Spec.RawConv
import Verif.Spec.Record
import Verif.Spec.Release
import Verif.Spec.Replay
import Verif.Spec.Stream
import Verif.Spec.StructList
import Verif.Spec.Text
import Verif.Spec.Token
import Verif.Spec.Vcs
import Verif.Spec.Wire
import Verif.Spec.Writer
