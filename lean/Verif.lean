import Verif.Props.Buffer
import Verif.Props.Value
import Verif.Props.Compare
import Verif.Props.Filter
import Verif.Props.Header
import Verif.Props.Framing
import Verif.Props.Wire
import Verif.Props.Vector
import Verif.Props.HashMap
import Verif.Props.LinkedList
import Verif.Props.Time
import Verif.Props.Base64
import Verif.Props.Session
import Verif.Props.Retry
import Verif.Props.Handle
import Verif.Props.Routing
import Verif.Props.Router
import Verif.Props.Dispatch
import Verif.Props.Pending
import Verif.Props.TokenChain
import Verif.Props.Registry
import Verif.Props.Provider
import Verif.Props.Params
import Verif.Props.SubCache
import Verif.Props.AsyncSubscribe
import Verif.Props.Interval
import Verif.Props.ValueChange
import Verif.Props.Text
import Verif.Props.Retain
import Verif.Props.Answer
import Verif.Props.Subscribe
import Verif.Props.Consumer
import Verif.Props.ThreadPool
import Verif.Props.Semaphore
import Verif.Props.Messages
import Verif.Props.Reconnect
import Verif.Props.PrivateLink
import Verif.Props.PrivateServer
import Verif.Props.ObjectCompare
import Verif.Props.DateText
import Verif.Props.FloatText
import Verif.Props.Method
import Verif.Props.Rows
import Verif.Props.Gather
import Verif.Props.GetExt
import Verif.Props.ElementInfo
import Verif.Props.Register
import Verif.Props.SetGet
import Verif.Props.Json
import Verif.Props.Socket
import Verif.Props.RowWire
import Verif.Props.Destroy
import Verif.Props.EventWire
import Verif.Props.Cells
import Verif.Props.Locks
import Verif.Props.Trace
import Verif.Props.Legacy
import Verif.Props.SessionWire
import Verif.Props.RawMove
import Verif.Props.Typed
import Verif.Props.DirectCache
import Verif.Props.Log
import Verif.Props.DynamicTable
import Verif.Props.Print
import Verif.Props.Core
import Verif.Props.CoreClient
import Verif.Props.AsyncCall
import Verif.Props.Broker
import Verif.Props.Timeout
import Verif.Props.Discover
import Verif.Props.PrivateAddress
import Verif.Props.RouterFile
import Verif.Props.SubscribeMany
import Verif.Props.DisconnectWatch
import Verif.Props.RouterStart
import Verif.Props.WarnLimit
import Verif.Props.ClientRead
