import Verif.Basic
import Verif.Lemmas.Active
import Verif.Lemmas.ActiveRun
import Verif.Lemmas.ActiveTable
import Verif.Lemmas.Answer
import Verif.Lemmas.AnswerDispatch
import Verif.Lemmas.Base64
import Verif.Lemmas.Client
import Verif.Lemmas.Deflate
import Verif.Lemmas.Dispatch
import Verif.Lemmas.Endpoint
import Verif.Lemmas.Extensions
import Verif.Lemmas.Frame
import Verif.Lemmas.Handshake
import Verif.Lemmas.Holds
import Verif.Lemmas.Http
import Verif.Lemmas.Live
import Verif.Lemmas.Memory
import Verif.Lemmas.MemoryDispatch
import Verif.Lemmas.MemoryEndpoints
import Verif.Lemmas.MemoryRequest
import Verif.Lemmas.MemoryResponse
import Verif.Lemmas.MemorySend
import Verif.Lemmas.MemoryServer
import Verif.Lemmas.MemoryWs
import Verif.Lemmas.Message
import Verif.Lemmas.Oom
import Verif.Lemmas.OomActive
import Verif.Lemmas.OomDispatch
import Verif.Lemmas.OomForm
import Verif.Lemmas.OomInstance
import Verif.Lemmas.OomRequest
import Verif.Lemmas.OomSend
import Verif.Lemmas.OomWs
import Verif.Lemmas.Options
import Verif.Lemmas.Segments
import Verif.Lemmas.Send
import Verif.Lemmas.SendTransfer
import Verif.Lemmas.Token
import Verif.Lemmas.UMap
import Verif.Lemmas.UMapStr
import Verif.Lemmas.Upload
import Verif.Lemmas.UrlCodec
import Verif.Lemmas.UrlParams
import Verif.Lemmas.Utf8
import Verif.Lemmas.WsOpen
import Verif.Lemmas.WsReaders
import Verif.Lemmas.WsThreads
import Verif.Lemmas.Yuarel
import Verif.Model.Active
import Verif.Model.Alloc
import Verif.Model.Answer
import Verif.Model.Cert
import Verif.Model.CleanMap
import Verif.Model.Client
import Verif.Model.Compress
import Verif.Model.Credentials
import Verif.Model.Deflate
import Verif.Model.DeflateData
import Verif.Model.Dispatch
import Verif.Model.Endpoint
import Verif.Model.EndpointList
import Verif.Model.EndpointType
import Verif.Model.FileUpload
import Verif.Model.Frame
import Verif.Model.Handshake
import Verif.Model.IdSetup
import Verif.Model.Injection
import Verif.Model.Instance
import Verif.Model.Live
import Verif.Model.Log
import Verif.Model.Mail
import Verif.Model.MapList
import Verif.Model.Memory
import Verif.Model.MemoryResponse
import Verif.Model.MemorySend
import Verif.Model.MemoryServer
import Verif.Model.MemoryWs
import Verif.Model.Message
import Verif.Model.MgrWait
import Verif.Model.Multiple
import Verif.Model.Oom
import Verif.Model.OomActive
import Verif.Model.OomAnswer
import Verif.Model.OomCompress
import Verif.Model.OomDeflate
import Verif.Model.OomDispatch
import Verif.Model.OomForm
import Verif.Model.OomHandshake
import Verif.Model.OomInflate
import Verif.Model.OomInstance
import Verif.Model.OomMail
import Verif.Model.OomMatch
import Verif.Model.OomOpen
import Verif.Model.OomRead
import Verif.Model.OomRegister
import Verif.Model.OomRequest
import Verif.Model.OomSend
import Verif.Model.OomStatic
import Verif.Model.OomWebsite
import Verif.Model.OomWs
import Verif.Model.Options
import Verif.Model.Pages
import Verif.Model.Printf
import Verif.Model.Proxy
import Verif.Model.PutFile
import Verif.Model.ReadFile
import Verif.Model.Send
import Verif.Model.Session
import Verif.Model.Shared
import Verif.Model.Sheep
import Verif.Model.SockAddr
import Verif.Model.StaticFile
import Verif.Model.StreamClient
import Verif.Model.StreamData
import Verif.Model.StreamExample
import Verif.Model.Strtok
import Verif.Model.Token
import Verif.Model.Types
import Verif.Model.UMap
import Verif.Model.Upgrade
import Verif.Model.Upload
import Verif.Model.UrlCodec
import Verif.Model.Utf8
import Verif.Model.Uwsc
import Verif.Model.UwscMain
import Verif.Model.WaitClose
import Verif.Model.Website
import Verif.Model.WebsiteThreads
import Verif.Model.WsAwait
import Verif.Model.WsEnd
import Verif.Model.WsExample
import Verif.Model.WsHandle
import Verif.Model.WsJson
import Verif.Model.WsLists
import Verif.Model.WsMisc
import Verif.Model.WsOpen
import Verif.Model.WsPacked
import Verif.Model.WsPair
import Verif.Model.WsReaders
import Verif.Model.WsServe
import Verif.Model.WsService
import Verif.Model.WsThreads
import Verif.Model.Yuarel
import Verif.Props.Active
import Verif.Props.Alloc
import Verif.Props.Answer
import Verif.Props.AnswerEndToEnd
import Verif.Props.Cert
import Verif.Props.CleanMap
import Verif.Props.Client
import Verif.Props.Compress
import Verif.Props.Credentials
import Verif.Props.Deflate
import Verif.Props.DeflateData
import Verif.Props.Dispatch
import Verif.Props.EndToEnd
import Verif.Props.EndpointList
import Verif.Props.Export
import Verif.Props.Extensions
import Verif.Props.FileName
import Verif.Props.FileUpload
import Verif.Props.Frame
import Verif.Props.FrameMore
import Verif.Props.Guard
import Verif.Props.Handshake
import Verif.Props.HandshakeClient
import Verif.Props.HeadersEndToEnd
import Verif.Props.IdSetup
import Verif.Props.Injection
import Verif.Props.Instance
import Verif.Props.JsonEndToEnd
import Verif.Props.Live
import Verif.Props.Log
import Verif.Props.Mail
import Verif.Props.MapList
import Verif.Props.Memory
import Verif.Props.MemoryResponse
import Verif.Props.MemorySend
import Verif.Props.MemoryServer
import Verif.Props.MemoryWs
import Verif.Props.Message
import Verif.Props.MgrWait
import Verif.Props.Multiple
import Verif.Props.Oom
import Verif.Props.OomActive
import Verif.Props.OomAnswer
import Verif.Props.OomCompress
import Verif.Props.OomDeflate
import Verif.Props.OomDispatch
import Verif.Props.OomForm
import Verif.Props.OomHandshake
import Verif.Props.OomInflate
import Verif.Props.OomInstance
import Verif.Props.OomMail
import Verif.Props.OomMatch
import Verif.Props.OomOpen
import Verif.Props.OomRead
import Verif.Props.OomRegister
import Verif.Props.OomRequest
import Verif.Props.OomSend
import Verif.Props.OomStatic
import Verif.Props.OomWebsite
import Verif.Props.OomWs
import Verif.Props.Options
import Verif.Props.Pages
import Verif.Props.Program
import Verif.Props.Proxy
import Verif.Props.PutFile
import Verif.Props.ReadFile
import Verif.Props.Routing
import Verif.Props.Send
import Verif.Props.Session
import Verif.Props.Shared
import Verif.Props.Sheep
import Verif.Props.SockAddr
import Verif.Props.StaticFile
import Verif.Props.StreamClient
import Verif.Props.StreamData
import Verif.Props.StreamExample
import Verif.Props.Token
import Verif.Props.Types
import Verif.Props.UMap
import Verif.Props.UMapValue
import Verif.Props.Upload
import Verif.Props.UrlCodec
import Verif.Props.Utf8
import Verif.Props.Uwsc
import Verif.Props.UwscMain
import Verif.Props.WaitClose
import Verif.Props.Website
import Verif.Props.WebsiteCompressed
import Verif.Props.WebsiteThreads
import Verif.Props.WsAwait
import Verif.Props.WsEnd
import Verif.Props.WsEndToEnd
import Verif.Props.WsExample
import Verif.Props.WsHandle
import Verif.Props.WsJson
import Verif.Props.WsLists
import Verif.Props.WsMisc
import Verif.Props.WsOpen
import Verif.Props.WsPacked
import Verif.Props.WsPair
import Verif.Props.WsReaders
import Verif.Props.WsServe
import Verif.Props.WsService
import Verif.Props.WsThreads
import Verif.Props.Yuarel
import Verif.Props.YuarelSound
import Verif.Spec.Active
import Verif.Spec.AnswerMem
import Verif.Spec.Arguments
import Verif.Spec.Base64
import Verif.Spec.Client
import Verif.Spec.Coding
import Verif.Spec.Cookie
import Verif.Spec.Curl
import Verif.Spec.Deflate
import Verif.Spec.Handshake
import Verif.Spec.Http
import Verif.Spec.Json
import Verif.Spec.Mail
import Verif.Spec.MapList
import Verif.Spec.OMap
import Verif.Spec.Oom
import Verif.Spec.OomActive
import Verif.Spec.OomDispatch
import Verif.Spec.OomForm
import Verif.Spec.OomInstance
import Verif.Spec.OomMail
import Verif.Spec.OomRead
import Verif.Spec.OomRequest
import Verif.Spec.OomSend
import Verif.Spec.OomWs
import Verif.Spec.Options
import Verif.Spec.Path
import Verif.Spec.Routing
import Verif.Spec.Segments
import Verif.Spec.SockAddr
import Verif.Spec.Stored
import Verif.Spec.Stream
import Verif.Spec.Token
import Verif.Spec.Url
import Verif.Spec.UrlParts
import Verif.Spec.Utf8
import Verif.Spec.Ws
import Verif.Spec.WsOpen
