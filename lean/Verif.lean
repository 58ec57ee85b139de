import Verif.Model.Basic
import Verif.Model.Reader
import Verif.Model.ChunkedEncoder
import Verif.Spec.Chunked
import Verif.Proofs.Basic
import Verif.Proofs.ChunkedEncoder
import Verif.Model.Http
import Verif.Model.ServerEncode
import Verif.Spec.Head
import Verif.Proofs.Http
import Verif.Proofs.HeadLines
import Verif.Proofs.ServerEncode
import Verif.Proofs.ServerEncodeFixed
import Verif.Proofs.EncodeLive
import Verif.Proofs.ChunkGrammar
import Verif.Props.ServerEncode
import Verif.Model.Copy
import Verif.Spec.Response
import Verif.Proofs.Copy
import Verif.Proofs.CopyEncoder
import Verif.Props.Copy
import Verif.Model.Httparse
import Verif.Model.ChunkedDecoder
import Verif.Spec.ChunkedBody
import Verif.Spec.Within
import Verif.Proofs.Httparse
import Verif.Proofs.DecoderSteps
import Verif.Proofs.DecoderInv
import Verif.Proofs.DecoderFit
import Verif.Spec.Reads
import Verif.Spec.Fields
import Verif.Proofs.DecoderRuns
import Verif.Proofs.BodyGrammar
import Verif.Proofs.DecoderBad
import Verif.Proofs.DecoderMain
import Verif.Props.ChunkedDecoder
import Verif.Model.BufReader
import Verif.Model.ServerDecode
import Verif.Model.Glitch
import Verif.Model.Accept
import Verif.Spec.RequestHead
import Verif.Spec.Request
import Verif.Proofs.RequestHead
import Verif.Proofs.ServerDecode
import Verif.Proofs.Judge
import Verif.Proofs.Accept
import Verif.Spec.Connection
import Verif.Proofs.ReqBody
import Verif.Proofs.Served
import Verif.Proofs.ChunkedReqBody
import Verif.Proofs.HeadCases
import Verif.Props.ServerDecode
import Verif.Spec.Endpoint
import Verif.Spec.Conversation
import Verif.Proofs.Fuel
import Verif.Proofs.Advance
import Verif.Spec.Reach
import Verif.Proofs.StepReach
import Verif.Proofs.Total
import Verif.Proofs.Writers
import Verif.Proofs.Conversation
import Verif.Spec.KeepAlive
import Verif.Proofs.KeepAlive
import Verif.Proofs.OneAnswer
import Verif.Proofs.Timeout
import Verif.Proofs.Consumed
import Verif.Props.Accept
import Verif.Props.ChunkedRequest
import Verif.Spec.Glitch
import Verif.Proofs.Glitch
import Verif.Props.Flush
import Verif.Props.Glitch
import Verif.Model.ResponseWriter
import Verif.Spec.ResponseOps
import Verif.Props.ResponseWriter
import Verif.Model.PathTree
import Verif.Model.Router
import Verif.Spec.Routing
import Verif.Proofs.Router
import Verif.Props.Router
import Verif.Model.Cors
import Verif.Spec.Cors
import Verif.Proofs.Cors
import Verif.Props.Cors
import Verif.Model.Identity
import Verif.Spec.Identity
import Verif.Props.Identity
import Verif.Model.Client
import Verif.Spec.Client
import Verif.Spec.Reply
import Verif.Proofs.ClientEncode
import Verif.Proofs.ClientDecode
import Verif.Props.ClientEncode
import Verif.Props.ClientDecode
import Verif.Proofs.RoundTrip
import Verif.Props.RoundTrip
import Verif.Props.Echo
import Verif.Spec.Utf8
import Verif.Model.Body
import Verif.Proofs.Utf8
import Verif.Proofs.Body
import Verif.Props.Body
import Verif.Spec.Stall
import Verif.Proofs.Prompt
import Verif.Props.Prompt
import Verif.Model.IntoAsyncRead
import Verif.Proofs.Sse
import Verif.Props.Sse
import Verif.Proofs.Thru
import Verif.Proofs.ThruAccept
import Verif.Proofs.ThruBody
import Verif.Proofs.ThruClient
import Verif.Props.NoWait
import Verif.Proofs.Eaten
import Verif.Props.KeepAlive
import Verif.Conformance.Server
import Verif.Conformance.Big
import Verif.Conformance.Decoder
import Verif.Spec.Recipient
import Verif.Proofs.Recipient
import Verif.Props.Recipient
import Verif.Spec.Isolation
import Verif.Proofs.Isolation
import Verif.Props.Isolation
import Verif.Spec.Wake
import Verif.Proofs.Wake
import Verif.Props.Wake
import Verif.Spec.Memory
import Verif.Proofs.Memory
import Verif.Props.Memory
import Verif.Spec.Relay
import Verif.Model.Relay
import Verif.Model.Errors
import Verif.Proofs.Relay
import Verif.Props.Relay
import Verif.Spec.Framing
import Verif.Spec.Errors
import Verif.Proofs.Framing
import Verif.Props.Framing
import Verif.Props.Errors
import Verif.Spec.Gateway
import Verif.Model.Gateway
import Verif.Proofs.Gateway
import Verif.Props.Gateway
import Verif.Spec.Case
import Verif.Proofs.Case
import Verif.Props.Case
import Verif.Spec.HeadMemory
import Verif.Props.HeadMemory
import Verif.Props.RoutedExchange
import Verif.Props.Session
import Verif.Proofs.DecoderCut
import Verif.Proofs.Lockstep
import Verif.Proofs.Later
import Verif.Proofs.Held
import Verif.Props.Live
import Verif.Props.Silence
import Verif.Model.Duplex
import Verif.Spec.Duplex
import Verif.Proofs.Duplex
import Verif.Proofs.DuplexRun
import Verif.Props.Duplex
import Verif.Proofs.Pipelined
import Verif.Props.Pipelined
import Verif.Model.Shared
import Verif.Spec.Shared
import Verif.Proofs.Shared
import Verif.Props.Shared
import Verif.Proofs.Truncated
import Verif.Props.Cut
import Verif.Proofs.Broken
import Verif.Proofs.Glued
import Verif.Proofs.GiveUp
import Verif.Props.Glued
import Verif.Props.GiveUp
import Verif.Props.Limits
import Verif.Proofs.HeadSize
import Verif.Props.Failing
import Verif.Spec.Fails
import Verif.Props.CorsExchange
import Verif.Props.Hello
import Verif.Spec.Matters
import Verif.Props.Matters
import Verif.Spec.Talk
import Verif.Props.Talk
import Verif.Model.Middleware
import Verif.Model.Login
import Verif.Model.ErrorsExample
import Verif.Props.Middleware
import Verif.Props.Login
import Verif.Props.ErrorsExample
