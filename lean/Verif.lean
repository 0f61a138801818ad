import Verif.Model.TreeBuilder
import Verif.Model.TreeFeeder
import Verif.Props.Decoder
import Verif.Props.RoundTrip
import Verif.Props.Encoding
import Verif.Props.Base64
import Verif.Props.Values
import Verif.Props.IsoDate
import Verif.Props.UrlForm
import Verif.Props.HttpHeader
import Verif.Props.Url
import Verif.Props.HttpInput
import Verif.Props.HttpOutput
import Verif.Props.HttpMessages
import Verif.Props.Serve
import Verif.Props.Registry
import Verif.Props.RegistryStream
import Verif.Props.Rpc
import Verif.Props.Json
import Verif.Props.Xml
import Verif.Props.XmlRead
import Verif.Props.XmlRefuse
import Verif.Props.HttpPeer
import Verif.Props.ProxyCache
import Verif.Proofs.HttpReply
import Verif.Model.Proxy
import Verif.Spec.Proxy
import Verif.Proofs.Proxy
import Verif.Props.Proxy
import Verif.Props.StringValid
import Verif.Props.Secrets
import Verif.Props.Dump
import Verif.Props.ProxyConfig
import Verif.Props.CallLog
import Verif.Model.Remote
import Verif.Proofs.Remote
import Verif.Props.Remote
import Verif.Spec.Civil
import Verif.Model.DateTimeMake
import Verif.Spec.Zone
import Verif.Proofs.Civil
import Verif.Props.Dates
import Verif.Model.Js
import Verif.Spec.Js
import Verif.Proofs.Js
import Verif.Proofs.JsParse
import Verif.Proofs.JsCut
import Verif.Props.Js
import Verif.Model.Python
import Verif.Spec.Python
import Verif.Proofs.Python
import Verif.Proofs.AnyBuilder
import Verif.Proofs.PythonAny
import Verif.Props.AnyInput
import Verif.Props.Python
import Verif.Model.Web
import Verif.Spec.Web
import Verif.Proofs.Web
import Verif.Spec.FormTree
import Verif.Proofs.FormTree
import Verif.Props.FormTree
import Verif.Props.Web
import Verif.Model.Descriptors
import Verif.Spec.Descriptors
import Verif.Props.Descriptors
import Verif.Model.Address
import Verif.Props.Address
import Verif.Model.Heap
import Verif.Spec.Heap
import Verif.Proofs.Heap
import Verif.Proofs.HeapRead
import Verif.Proofs.HeapBuild
import Verif.Props.Heap
import Verif.Model.PyServer
import Verif.Spec.PyServer
import Verif.Props.PyServer
import Verif.Props.PyServerSystem
import Verif.Model.PyWeb
import Verif.Spec.PyWeb
import Verif.Proofs.PyWeb
import Verif.Proofs.PyXml
import Verif.Props.PyWeb
import Verif.Model.PyProxy
import Verif.Proofs.PyProxy
import Verif.Props.PyProxy
import Verif.Model.PyRemote
import Verif.Props.PyRemote
import Verif.Model.PyDump
import Verif.Spec.PyDump
import Verif.Proofs.Utf8
import Verif.Props.PyDump
import Verif.Props.PyHead
import Verif.Model.PyDate
import Verif.Props.PyDate
import Verif.Model.PyBool
import Verif.Props.PyBool
import Verif.Model.Converters
import Verif.Spec.Converters
import Verif.Props.Converters
import Verif.Model.PyText
import Verif.Spec.PyText
import Verif.Proofs.PyText
import Verif.Props.PyText
import Verif.Proofs.RequestCut
import Verif.Props.RemoteAny
import Verif.Props.HeaderFields
import Verif.Proofs.Waits
import Verif.Props.Waits
import Verif.Spec.Sizes
import Verif.Proofs.Sizes
import Verif.Proofs.SizesTree
import Verif.Props.Sizes
import Verif.Proofs.PyCut
import Verif.Props.PyRemoteAny
import Verif.Props.Unsendable
import Verif.Model.Mixed
import Verif.Props.PyToCpp
import Verif.Props.CppToPy
import Verif.Props.Base64Any
import Verif.Model.PyHeaders
import Verif.Props.PyHeaders
import Verif.Props.LateFault
import Verif.Props.HeaderText
import Verif.Model.Netcat
import Verif.Props.Netcat
import Verif.Props.NetcatAddress
import Verif.Model.XmlErrors
import Verif.Props.XmlErrors
import Verif.Model.Elapsed
import Verif.Props.Elapsed
import Verif.Model.PyErrors
import Verif.Props.PyErrors
import Verif.Model.DbConn
import Verif.Props.DbConn
import Verif.Props.Head
import Verif.Props.FormRefuse
import Verif.Props.UrlText
import Verif.Props.HeaderSize
import Verif.Props.LateLine
import Verif.Props.Framing
import Verif.Model.PyNew
import Verif.Props.PyNew
import Verif.Props.PyUnsaid
import Verif.Model.NetcatPrint
import Verif.Props.NetcatPrint
import Verif.Model.NetcatComplete
import Verif.Props.NetcatComplete
import Verif.Model.Handlers
import Verif.Props.Handlers
import Verif.Props.HttpRefused
import Verif.Props.HandlersMore
import Verif.Model.CStr
import Verif.Props.CStr
import Verif.Model.OwnMarshaller
import Verif.Props.OwnMarshaller
import Verif.Model.Subscript
import Verif.Props.Subscript
import Verif.Model.GatherFeed
import Verif.Props.GatherFeed
