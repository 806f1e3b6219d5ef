import Verif.Base
import Verif.Check.RepoTests
import Verif.Lemmas.Appends
import Verif.Lemmas.Buf
import Verif.Lemmas.Conf
import Verif.Lemmas.ConfHeap
import Verif.Lemmas.Fair
import Verif.Lemmas.Files
import Verif.Lemmas.Frame
import Verif.Lemmas.Fs
import Verif.Lemmas.Headers
import Verif.Lemmas.Headers2
import Verif.Lemmas.Http
import Verif.Lemmas.Http2
import Verif.Lemmas.Json
import Verif.Lemmas.Keeps
import Verif.Lemmas.Limits
import Verif.Lemmas.LogBound
import Verif.Lemmas.LogSigned
import Verif.Lemmas.LogSingle
import Verif.Lemmas.Messages
import Verif.Lemmas.Messages2
import Verif.Lemmas.More
import Verif.Lemmas.Multipart
import Verif.Lemmas.Multipart2
import Verif.Lemmas.Queue
import Verif.Lemmas.QueueNames
import Verif.Lemmas.Request
import Verif.Lemmas.Response
import Verif.Lemmas.Router
import Verif.Lemmas.Sample
import Verif.Lemmas.Served
import Verif.Lemmas.Server
import Verif.Lemmas.Shared
import Verif.Lemmas.Static
import Verif.Lemmas.Steps
import Verif.Lemmas.StepsBound
import Verif.Lemmas.StepsDash
import Verif.Lemmas.Strings
import Verif.Lemmas.Strings2
import Verif.Lemmas.Strings3
import Verif.Lemmas.Terminates
import Verif.Lemmas.Time
import Verif.Lemmas.Unread
import Verif.Lemmas.Upload
import Verif.Libc
import Verif.Model.Address
import Verif.Model.Alloc
import Verif.Model.Appends
import Verif.Model.Arrivals
import Verif.Model.BlockSizes
import Verif.Model.Changing
import Verif.Model.ConfHeap
import Verif.Model.ConfParser
import Verif.Model.Disk
import Verif.Model.Embed
import Verif.Model.FileUtils
import Verif.Model.Fs
import Verif.Model.Full
import Verif.Model.Getopt
import Verif.Model.Hook
import Verif.Model.HttpUtils
import Verif.Model.JsonUtils
import Verif.Model.Listen
import Verif.Model.Log
import Verif.Model.LogFile
import Verif.Model.LogHeaders
import Verif.Model.LogRotate
import Verif.Model.Main
import Verif.Model.Memory
import Verif.Model.Messages
import Verif.Model.Net
import Verif.Model.Overlap
import Verif.Model.Peer
import Verif.Model.Queue
import Verif.Model.Races
import Verif.Model.Reuse
import Verif.Model.Rotate
import Verif.Model.Router
import Verif.Model.RouterLife
import Verif.Model.Saving
import Verif.Model.Server
import Verif.Model.Shared
import Verif.Model.Startup
import Verif.Model.State
import Verif.Model.Steps
import Verif.Model.StringUtils
import Verif.Model.Terminal
import Verif.Model.Time
import Verif.Model.Tls
import Verif.Model.Whole
import Verif.Model.Worker
import Verif.Model.Ws
import Verif.Props.AbsoluteForm
import Verif.Props.Address
import Verif.Props.Admission
import Verif.Props.Alloc
import Verif.Props.Arrivals
import Verif.Props.Bearable
import Verif.Props.Blank
import Verif.Props.Blanks
import Verif.Props.BlockSizes
import Verif.Props.Changing
import Verif.Props.Conf
import Verif.Props.ConfAll
import Verif.Props.CrossOrigin
import Verif.Props.CutRequest
import Verif.Props.Disk
import Verif.Props.Embed
import Verif.Props.Ending
import Verif.Props.Entries
import Verif.Props.Escape
import Verif.Props.Evasion
import Verif.Props.Fair
import Verif.Props.Files
import Verif.Props.FilesKept
import Verif.Props.Flood
import Verif.Props.FormFields
import Verif.Props.Forms
import Verif.Props.Framing
import Verif.Props.Full
import Verif.Props.FullFair
import Verif.Props.FullRest
import Verif.Props.Getopt
import Verif.Props.Glued
import Verif.Props.Harmless
import Verif.Props.HeaderOwner
import Verif.Props.Headers
import Verif.Props.Hook
import Verif.Props.Http
import Verif.Props.Http2
import Verif.Props.InProgress
import Verif.Props.Isolation
import Verif.Props.Json
import Verif.Props.JsonExact
import Verif.Props.Limits
import Verif.Props.Lines
import Verif.Props.Links
import Verif.Props.LinksRun
import Verif.Props.Listen
import Verif.Props.ListenAll
import Verif.Props.Log
import Verif.Props.LogFields
import Verif.Props.LogFile
import Verif.Props.LogHeaders
import Verif.Props.LogLines
import Verif.Props.LogRotate
import Verif.Props.LogSingle
import Verif.Props.LogTrue
import Verif.Props.LongHeader
import Verif.Props.Main
import Verif.Props.Malformed
import Verif.Props.MediaType
import Verif.Props.Memory
import Verif.Props.Messages
import Verif.Props.MethodWord
import Verif.Props.Methods
import Verif.Props.Mixed
import Verif.Props.Multipart
import Verif.Props.Mutex
import Verif.Props.Net
import Verif.Props.Order
import Verif.Props.Other
import Verif.Props.Overlap
import Verif.Props.Ownership
import Verif.Props.PageSession
import Verif.Props.PartsFit
import Verif.Props.Peer
import Verif.Props.Pipeline
import Verif.Props.Queue
import Verif.Props.Races
import Verif.Props.Reason
import Verif.Props.Requests
import Verif.Props.Reserve
import Verif.Props.Reuse
import Verif.Props.Rotate
import Verif.Props.RoundTrip
import Verif.Props.Router
import Verif.Props.RouterLife
import Verif.Props.Saving
import Verif.Props.Segment
import Verif.Props.Server
import Verif.Props.Session
import Verif.Props.Settings
import Verif.Props.SettingsBuilt
import Verif.Props.SharedMemory
import Verif.Props.Shown
import Verif.Props.Sizes
import Verif.Props.Smuggling
import Verif.Props.SplitLong
import Verif.Props.StartThreads
import Verif.Props.Startup
import Verif.Props.Static
import Verif.Props.Steps
import Verif.Props.Strings
import Verif.Props.Templates
import Verif.Props.Terminal
import Verif.Props.Terminates
import Verif.Props.Time
import Verif.Props.Tls
import Verif.Props.Trail
import Verif.Props.Unread
import Verif.Props.Upload
import Verif.Props.Whole
import Verif.Props.WholeApi
import Verif.Props.WholeBears
import Verif.Props.WholeEnding
import Verif.Props.WholePage
import Verif.Props.WholeSite
import Verif.Props.Writes
import Verif.Spec.Announced
import Verif.Spec.Conf
import Verif.Spec.ConfAll
import Verif.Spec.CrossOrigin
import Verif.Spec.Ending
import Verif.Spec.Fair
import Verif.Spec.FairFull
import Verif.Spec.Files
import Verif.Spec.Getopt
import Verif.Spec.HappensBefore
import Verif.Spec.Harmless
import Verif.Spec.Headers
import Verif.Spec.Http
import Verif.Spec.Json
import Verif.Spec.LimitLines
import Verif.Spec.Limits
import Verif.Spec.Lines
import Verif.Spec.Links
import Verif.Spec.Listen
import Verif.Spec.Log
import Verif.Spec.LogRead
import Verif.Spec.Loops
import Verif.Spec.Main
import Verif.Spec.MediaType
import Verif.Spec.Multipart
import Verif.Spec.Net
import Verif.Spec.Order
import Verif.Spec.PageSession
import Verif.Spec.PartsFit
import Verif.Spec.Queue
import Verif.Spec.Reason
import Verif.Spec.Request
import Verif.Spec.RoundTrip
import Verif.Spec.Router
import Verif.Spec.Smuggling
import Verif.Spec.Startup
import Verif.Spec.Static
import Verif.Spec.Strings
import Verif.Spec.Terminal
import Verif.Spec.Time
import Verif.Spec.Tls
import Verif.Spec.Trail
import Verif.Spec.Whole
