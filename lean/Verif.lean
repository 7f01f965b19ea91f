import Verif.Lemmas.Accept
import Verif.Lemmas.Acdc
import Verif.Lemmas.Agree
import Verif.Lemmas.Base64
import Verif.Lemmas.Base64Pad
import Verif.Lemmas.Build
import Verif.Lemmas.BuildArgs
import Verif.Lemmas.BuildIncept
import Verif.Lemmas.BuildOther
import Verif.Lemmas.Common
import Verif.Lemmas.Counter
import Verif.Lemmas.CounterPanic
import Verif.Lemmas.Credential
import Verif.Lemmas.Dater
import Verif.Lemmas.Deep
import Verif.Lemmas.DeepAccept
import Verif.Lemmas.DeepLog
import Verif.Lemmas.DeepStream
import Verif.Lemmas.DeepTel
import Verif.Lemmas.Depth
import Verif.Lemmas.Edges
import Verif.Lemmas.End
import Verif.Lemmas.Fair
import Verif.Lemmas.FairCred
import Verif.Lemmas.FairEvents
import Verif.Lemmas.FairStream
import Verif.Lemmas.Foreign
import Verif.Lemmas.Frame
import Verif.Lemmas.History
import Verif.Lemmas.Indexer
import Verif.Lemmas.IndexerMore
import Verif.Lemmas.IndexerPanic
import Verif.Lemmas.IndexerParse
import Verif.Lemmas.Ingest
import Verif.Lemmas.Issue
import Verif.Lemmas.Json
import Verif.Lemmas.JsonFloat
import Verif.Lemmas.JsonRead
import Verif.Lemmas.JsonSize
import Verif.Lemmas.JsonText
import Verif.Lemmas.Kel
import Verif.Lemmas.Kmi
import Verif.Lemmas.Mark
import Verif.Lemmas.Matter
import Verif.Lemmas.MatterBexfil
import Verif.Lemmas.MatterExfil
import Verif.Lemmas.MatterInv
import Verif.Lemmas.MatterNew
import Verif.Lemmas.MatterPanic
import Verif.Lemmas.MatterPanic2
import Verif.Lemmas.MatterPanic3
import Verif.Lemmas.MatterParse
import Verif.Lemmas.MatterReject
import Verif.Lemmas.MatterSpec
import Verif.Lemmas.MatterTables
import Verif.Lemmas.Num
import Verif.Lemmas.Number
import Verif.Lemmas.Pather
import Verif.Lemmas.Prefixer
import Verif.Lemmas.Pretty
import Verif.Lemmas.PrettyLines
import Verif.Lemmas.Radix
import Verif.Lemmas.Ratio
import Verif.Lemmas.RatioWrap
import Verif.Lemmas.Reader
import Verif.Lemmas.Replay
import Verif.Lemmas.Resend
import Verif.Lemmas.Reserve
import Verif.Lemmas.Rests
import Verif.Lemmas.RestsStream
import Verif.Lemmas.Sadder
import Verif.Lemmas.Saider
import Verif.Lemmas.SaiderVerify
import Verif.Lemmas.Schemer
import Verif.Lemmas.Send
import Verif.Lemmas.Signing
import Verif.Lemmas.Sizeify
import Verif.Lemmas.Sniff
import Verif.Lemmas.Stored
import Verif.Lemmas.Stream
import Verif.Lemmas.Tel
import Verif.Lemmas.Text
import Verif.Lemmas.Tholder
import Verif.Lemmas.TholderPanic
import Verif.Lemmas.TholderSat
import Verif.Lemmas.TholderText
import Verif.Lemmas.Together
import Verif.Lemmas.Typed
import Verif.Lemmas.Utf8
import Verif.Lemmas.Utf8Inv
import Verif.Lemmas.Util
import Verif.Lemmas.Version
import Verif.Lemmas.Wasm
import Verif.Lemmas.World
import Verif.Lemmas.WorldAcdc
import Verif.Lemmas.WorldDeep
import Verif.Lemmas.WorldFair
import Verif.Lemmas.WorldRests
import Verif.Lemmas.WorldTel
import Verif.Model.Base64
import Verif.Model.Basic
import Verif.Model.Common
import Verif.Model.Counter
import Verif.Model.Dater
import Verif.Model.Float
import Verif.Model.Hashes
import Verif.Model.Indexer
import Verif.Model.Json
import Verif.Model.Maps
import Verif.Model.Matter
import Verif.Model.Messaging
import Verif.Model.Num
import Verif.Model.Number
import Verif.Model.Numbers
import Verif.Model.Pather
import Verif.Model.Prefixer
import Verif.Model.Pretty
import Verif.Model.Radix
import Verif.Model.Randy
import Verif.Model.Sadder
import Verif.Model.Saider
import Verif.Model.Salter
import Verif.Model.Sample.Acdc
import Verif.Model.Sample.Dates
import Verif.Model.Sample.Event
import Verif.Model.Sample.Ingest
import Verif.Model.Sample.Issue
import Verif.Model.Sample.Kel
import Verif.Model.Sample.Keys
import Verif.Model.Sample.Schemer
import Verif.Model.Sample.Store
import Verif.Model.Sample.Tel
import Verif.Model.Signing
import Verif.Model.Tholder
import Verif.Model.Utf8
import Verif.Model.Util
import Verif.Model.Value
import Verif.Model.Wasm
import Verif.Model.WasmCodex
import Verif.Props.Acdc
import Verif.Props.Asked
import Verif.Props.Away
import Verif.Props.Batch
import Verif.Props.Blind
import Verif.Props.Blinded
import Verif.Props.Build
import Verif.Props.Chunks
import Verif.Props.Closed
import Verif.Props.Codes
import Verif.Props.Counter
import Verif.Props.CredSigners
import Verif.Props.Credential
import Verif.Props.Dater
import Verif.Props.Dates
import Verif.Props.DatesCred
import Verif.Props.Deep
import Verif.Props.DeepTel
import Verif.Props.Deliver
import Verif.Props.Depth
import Verif.Props.Diger
import Verif.Props.Digests
import Verif.Props.EdgePanic
import Verif.Props.Endorse
import Verif.Props.Ends
import Verif.Props.Float
import Verif.Props.Foreign
import Verif.Props.Fork
import Verif.Props.Hashes
import Verif.Props.Honest
import Verif.Props.Incept
import Verif.Props.Indexer
import Verif.Props.Issue
import Verif.Props.Json
import Verif.Props.JsonFloat
import Verif.Props.JsonText
import Verif.Props.Kel
import Verif.Props.KelAgree
import Verif.Props.KelSigners
import Verif.Props.Kmi
import Verif.Props.Limen
import Verif.Props.Maps
import Verif.Props.Market
import Verif.Props.Matter
import Verif.Props.Messaging
import Verif.Props.Names
import Verif.Props.Number
import Verif.Props.Numbers
import Verif.Props.Office
import Verif.Props.Pather
import Verif.Props.Prefixer
import Verif.Props.Prerotation
import Verif.Props.Pretty
import Verif.Props.Randy
import Verif.Props.Reader
import Verif.Props.Registry
import Verif.Props.Replay
import Verif.Props.Resend
import Verif.Props.Reserve
import Verif.Props.Rests
import Verif.Props.RestsOrderly
import Verif.Props.Sadder
import Verif.Props.Saider
import Verif.Props.Salted
import Verif.Props.Salter
import Verif.Props.SampleReceipt
import Verif.Props.Schemer
import Verif.Props.Send
import Verif.Props.Serder
import Verif.Props.Signer
import Verif.Props.Status
import Verif.Props.Stranger
import Verif.Props.StrangerMore
import Verif.Props.Tel
import Verif.Props.Tholder
import Verif.Props.Together
import Verif.Props.Types
import Verif.Props.Util
import Verif.Props.Version
import Verif.Props.Wasm
import Verif.Props.WasmCodex
import Verif.Props.Witnessed
import Verif.Spec.Acdc
import Verif.Spec.Away
import Verif.Spec.Batch
import Verif.Spec.Blinded
import Verif.Spec.Cesr
import Verif.Spec.Closed
import Verif.Spec.Codes
import Verif.Spec.Control
import Verif.Spec.Crypto
import Verif.Spec.Dates
import Verif.Spec.Deep
import Verif.Spec.Ends
import Verif.Spec.Fair
import Verif.Spec.Float
import Verif.Spec.Fork
import Verif.Spec.Hashes
import Verif.Spec.Issue
import Verif.Spec.Json
import Verif.Spec.JsonText
import Verif.Spec.Kel
import Verif.Spec.Market
import Verif.Spec.Message
import Verif.Spec.Names
import Verif.Spec.Numbers
import Verif.Spec.Office
import Verif.Spec.Path
import Verif.Spec.Pretty
import Verif.Spec.Reader
import Verif.Spec.Report
import Verif.Spec.Reserve
import Verif.Spec.Rests
import Verif.Spec.Said
import Verif.Spec.Schema
import Verif.Spec.Send
import Verif.Spec.Sigs
import Verif.Spec.Status
import Verif.Spec.Stream
import Verif.Spec.Tel
import Verif.Spec.Thold
import Verif.Spec.Together
import Verif.Spec.Types
import Verif.Spec.Version
import Verif.Spec.WasmCodex
