import Verif.Ed25519.AliasEnc
import Verif.Ed25519.AliasFe
import Verif.Ed25519.AliasGe
import Verif.Ed25519.AliasMul
import Verif.Ed25519.BaseMult
import Verif.Ed25519.Convert
import Verif.Ed25519.Coords
import Verif.Ed25519.Curve25519
import Verif.Ed25519.DoubleMult
import Verif.Ed25519.EdIdent
import Verif.Ed25519.Edwards
import Verif.Ed25519.Elligator
import Verif.Ed25519.Encoding
import Verif.Ed25519.FieldBytes
import Verif.Ed25519.FieldChecks
import Verif.Ed25519.FieldPack
import Verif.Ed25519.FieldProofs
import Verif.Ed25519.FieldRep
import Verif.Ed25519.GroupProofs
import Verif.Ed25519.Instance
import Verif.Ed25519.Montgomery
import Verif.Ed25519.Order
import Verif.Ed25519.Primes
import Verif.Ed25519.ScChecks
import Verif.Ed25519.ScalarProofs
import Verif.Ed25519.Slide
import Verif.Ed25519.SmallOrder
import Verif.Ed25519.Straight
import Verif.Ed25519.TableChecks
import Verif.Ed25519.Toy
import Verif.Model.AuditLog
import Verif.Model.Auditor
import Verif.Model.Basic
import Verif.Model.Bot
import Verif.Model.BotRun
import Verif.Model.Cli
import Verif.Model.CliNet
import Verif.Model.Client
import Verif.Model.Config
import Verif.Model.Crypto
import Verif.Model.Desk
import Verif.Model.Directory
import Verif.Model.DirectoryOps
import Verif.Model.Ed25519.Alias
import Verif.Model.Ed25519.Convert
import Verif.Model.Ed25519.Elligator
import Verif.Model.Ed25519.FeProg
import Verif.Model.Ed25519.Field
import Verif.Model.Ed25519.Group
import Verif.Model.Ed25519.Ops
import Verif.Model.Ed25519.ScProg
import Verif.Model.Ed25519.Scalar
import Verif.Model.Ed25519.Tables
import Verif.Model.Ed25519.Word
import Verif.Model.Files
import Verif.Model.Heap
import Verif.Model.Json.Base64
import Verif.Model.Json.Codec
import Verif.Model.Json.Value
import Verif.Model.KV
import Verif.Model.Listen
import Verif.Model.Load
import Verif.Model.Lock
import Verif.Model.Loops
import Verif.Model.Message
import Verif.Model.Pad
import Verif.Model.PadOps
import Verif.Model.Path
import Verif.Model.Pid
import Verif.Model.Proof
import Verif.Model.Refs
import Verif.Model.Server
import Verif.Model.Shutdown
import Verif.Model.Store
import Verif.Model.Str
import Verif.Model.Tree
import Verif.Model.TreeOps
import Verif.Model.TwitterBot
import Verif.Model.Url
import Verif.Model.Utils
import Verif.Model.Vrf
import Verif.Model.Waiting
import Verif.Model.Wire
import Verif.Proofs.AuditLog
import Verif.Proofs.Auditor
import Verif.Proofs.Bot
import Verif.Proofs.Cli
import Verif.Proofs.CliExact
import Verif.Proofs.CliNet
import Verif.Proofs.CliSafe
import Verif.Proofs.Client
import Verif.Proofs.Crowd
import Verif.Proofs.Desk
import Verif.Proofs.DirExact
import Verif.Proofs.DirPad
import Verif.Proofs.DirReads
import Verif.Proofs.DirShown
import Verif.Proofs.Directory
import Verif.Proofs.Disclosure
import Verif.Proofs.Eval
import Verif.Proofs.EvalDir
import Verif.Proofs.Heap
import Verif.Proofs.HeapMono
import Verif.Proofs.Json.Base64
import Verif.Proofs.Json.Codec
import Verif.Proofs.Json.Grammar
import Verif.Proofs.Json.GrammarV
import Verif.Proofs.Json.Into
import Verif.Proofs.Json.Parse
import Verif.Proofs.Json.Prefix
import Verif.Proofs.Json.Read
import Verif.Proofs.Json.ReadBack
import Verif.Proofs.Json.Text
import Verif.Proofs.Json.Utf8
import Verif.Proofs.KV
import Verif.Proofs.Listen
import Verif.Proofs.Load
import Verif.Proofs.Lock
import Verif.Proofs.Lockout
import Verif.Proofs.Loops
import Verif.Proofs.Mitm
import Verif.Proofs.Owner
import Verif.Proofs.Pad
import Verif.Proofs.Path
import Verif.Proofs.PathExact
import Verif.Proofs.PathSound
import Verif.Proofs.Pid
import Verif.Proofs.Refs
import Verif.Proofs.RefsLock
import Verif.Proofs.Restart
import Verif.Proofs.Server
import Verif.Proofs.Session
import Verif.Proofs.SessionExact
import Verif.Proofs.Shutdown
import Verif.Proofs.Store
import Verif.Proofs.TreeDeep
import Verif.Proofs.TreeGet
import Verif.Proofs.TreeHash
import Verif.Proofs.TreeInv
import Verif.Proofs.TreeOps
import Verif.Proofs.TreeVerify
import Verif.Proofs.Trio
import Verif.Proofs.Url
import Verif.Proofs.Users
import Verif.Proofs.Utils
import Verif.Proofs.Verdict
import Verif.Proofs.Vrf
import Verif.Proofs.Waiting
import Verif.Proofs.Wire
import Verif.Proofs.WireSize
import Verif.Proofs.World
import Verif.Props.Alias
import Verif.Props.App
import Verif.Props.AuditCrash
import Verif.Props.AuditLog
import Verif.Props.Auditor
import Verif.Props.BotRun
import Verif.Props.Cli
import Verif.Props.CliExact
import Verif.Props.CliNet
import Verif.Props.CliSafe
import Verif.Props.Client
import Verif.Props.ClientCrash
import Verif.Props.ClientSafety
import Verif.Props.Convert
import Verif.Props.Crowd
import Verif.Props.Desk
import Verif.Props.DirExact
import Verif.Props.Directory
import Verif.Props.Disclosure
import Verif.Props.Ed25519
import Verif.Props.Heap
import Verif.Props.Json
import Verif.Props.KV
import Verif.Props.Listen
import Verif.Props.Load
import Verif.Props.Lockout
import Verif.Props.Loops
import Verif.Props.Mitm
import Verif.Props.Owner
import Verif.Props.Pad
import Verif.Props.Path
import Verif.Props.PathExact
import Verif.Props.Pid
import Verif.Props.Proof
import Verif.Props.ProofExact
import Verif.Props.Refs
import Verif.Props.RefsLock
import Verif.Props.Restart
import Verif.Props.Server
import Verif.Props.Session
import Verif.Props.SessionExact
import Verif.Props.Shutdown
import Verif.Props.Split
import Verif.Props.Store
import Verif.Props.Str
import Verif.Props.System
import Verif.Props.Together
import Verif.Props.Tree
import Verif.Props.TreeExact
import Verif.Props.Trio
import Verif.Props.TwitterBot
import Verif.Props.Users
import Verif.Props.Utils
import Verif.Props.Verdict
import Verif.Props.Vrf
import Verif.Props.VrfGo
import Verif.Props.Waiting
import Verif.Props.Wire
import Verif.Props.WireCrash
import Verif.Props.WireSize
import Verif.Props.WireSizeGo
import Verif.Props.World
import Verif.Spec.Alias
import Verif.Spec.AuditLog
import Verif.Spec.Base64
import Verif.Spec.Bits
import Verif.Spec.Bot
import Verif.Spec.BotRun
import Verif.Spec.Chain
import Verif.Spec.Cli
import Verif.Spec.CliExact
import Verif.Spec.CliNet
import Verif.Spec.Client
import Verif.Spec.Crash
import Verif.Spec.CrashAudit
import Verif.Spec.CrashClient
import Verif.Spec.Crowd
import Verif.Spec.Curve
import Verif.Spec.Deep
import Verif.Spec.Desk
import Verif.Spec.DirExact
import Verif.Spec.Directory
import Verif.Spec.Disclosure
import Verif.Spec.Ed
import Verif.Spec.Elligator
import Verif.Spec.Encoding
import Verif.Spec.Heap
import Verif.Spec.JsonGrammar
import Verif.Spec.JsonInto
import Verif.Spec.JsonRead
import Verif.Spec.Lex
import Verif.Spec.Limbs
import Verif.Spec.Linear
import Verif.Spec.Listen
import Verif.Spec.Lockout
import Verif.Spec.Mitm
import Verif.Spec.Montgomery
import Verif.Spec.Owner
import Verif.Spec.Pad
import Verif.Spec.Path
import Verif.Spec.PathExact
import Verif.Spec.Paths
import Verif.Spec.Pid
import Verif.Spec.Points
import Verif.Spec.Refs
import Verif.Spec.Server
import Verif.Spec.Session
import Verif.Spec.SessionExact
import Verif.Spec.Split
import Verif.Spec.Store
import Verif.Spec.Tree
import Verif.Spec.Trio
import Verif.Spec.Users
import Verif.Spec.Verdict
import Verif.Spec.Waiting
import Verif.Spec.Wire
import Verif.Spec.WireSize
import Verif.Spec.World
