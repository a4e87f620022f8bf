import Verif.Props.Wire
import Verif.Props.AssocData
import Verif.Props.Requirements
import Verif.Model.Tools
import Verif.Props.Suites
import Verif.Props.Session
import Verif.Props.Levels
import Verif.Model.LetterOps
import Verif.Props.Reuse
import Verif.Lemmas.List
import Verif.Props.Signatures
import Verif.Props.Prepare
import Verif.Props.RoundTrip
import Verif.Props.CloseOpen
import Verif.Props.NoPanic
import Verif.Props.KeyFailures
import Verif.Props.Tamper
import Verif.Model.WireSession
import Verif.Lemmas.WireSession
import Verif.Lemmas.WireFirst
import Verif.Props.WireDelivery
import Verif.Props.WireState
import Verif.Props.WireAttacks
import Verif.Props.LHash
import Verif.Props.Support
import Verif.Props.KeyCodec
import Verif.Props.TextFormat
import Verif.Props.Stores
import Verif.Props.DirStore
import Verif.Props.Supply
import Verif.Model.FileText
import Verif.Lemmas.Text
import Verif.Props.FileText
import Verif.Model.Armor
import Verif.Props.Armor
import Verif.Model.FileSig
import Verif.Props.FileSig
import Verif.Model.Json
import Verif.Props.Json
import Verif.Model.CmdVerify
import Verif.Props.CmdVerify
import Verif.Model.Memory
import Verif.Props.Memory
import Verif.Props.WireOrder
import Verif.Props.WireFail
import Verif.Props.WireKeys
import Verif.Props.WirePanic
import Verif.Props.WireStream
import Verif.Props.WireLetters
import Verif.Props.Mac
import Verif.Props.CmdFiles
import Verif.Props.StoreLists
import Verif.Props.LineEnds
import Verif.Props.Generate
import Verif.Props.GenerateUse
import Verif.Props.Dialogs
import Verif.Props.DialogExamples
import Verif.Props.Configure
import Verif.Props.ConfigureDir
import Verif.Props.ConfigureExamples
import Verif.Lemmas.Fit
import Verif.Props.DialogPanics
import Verif.Props.DialogDir
import Verif.Props.DialogPanicExamples
import Verif.Props.DialogChoice
import Verif.Model.Report
import Verif.Props.Report
import Verif.Props.ReportVerify
import Verif.Model.Password
import Verif.Props.Password
import Verif.Model.Shared
import Verif.Props.Shared
import Verif.Props.Nonce
import Verif.Props.KeySizes
import Verif.Model.CmdLine
import Verif.Props.CmdLine
import Verif.Props.KeyStream
import Verif.Props.CmdUndo
import Verif.Model.BulkReport
import Verif.Props.BulkReport
import Verif.Model.WireMemory
import Verif.Props.WireMemory
import Verif.Props.WireMemoryRun
import Verif.Props.TextCodes
import Verif.Model.Listing
import Verif.Props.Listing
import Verif.Props.EnvelopeLines
import Verif.Model.Registry
import Verif.Props.Registry
import Verif.Model.Burn
import Verif.Props.Burn
import Verif.Props.Library
import Verif.Props.Received
import Verif.Props.Promises
import Verif.Props.KeySecrets
import Verif.Model.Exchange
import Verif.Props.Exchange
import Verif.Props.Reset
import Verif.Props.OnlyWith
import Verif.Props.Story
import Verif.Props.Isolation
import Verif.Model.Methods
import Verif.Props.Dispatch
import Verif.Props.Draws
import Verif.Props.Details
import Verif.Props.DispatchWire
import Verif.Props.StorySign
import Verif.Props.StoryWire
import Verif.Props.StoryPw
import Verif.Props.Frame
import Verif.Props.Restore
import Verif.Props.OnlyWithWire
import Verif.Props.DrawsWire
import Verif.Props.IsolationWire
import Verif.Props.LibraryKeys
import Verif.Props.WireForm
import Verif.Props.SessionVerify
import Verif.Vectors.Hash
import Verif.Vectors.HashTest
import Verif.Vectors.Ed25519
import Verif.Vectors.Files
import Verif.Vectors.Run
import Verif.Vectors.FileSigTest
import Verif.Vectors.Misc
import Verif.Props.Tight
import Verif.Model.Formats
import Verif.Lemmas.Formats
import Verif.Lemmas.Utf8
import Verif.Props.Formats
import Verif.Props.FormatsClose
import Verif.Props.FormatsStore
import Verif.Props.Utf8Spec
import Verif.Model.KeyringOpen
import Verif.Props.KeyringOpen
import Verif.Model.LetterJson
import Verif.Props.LetterJson
import Verif.Props.Reread
import Verif.Model.Check
import Verif.Props.Check
import Verif.Props.Accepted
import Verif.Props.Deliver
import Verif.Props.DeliverFiles
import Verif.Props.DeliverSig
import Verif.Props.DeliverExchange
import Verif.Props.GenerateSucceeds
import Verif.Props.SignFromNothing
import Verif.Props.WireProgress
import Verif.Props.WireFromNothing
import Verif.Model.Version
import Verif.Props.Version
