import Verif.Props.Block
import Verif.Props.Parse
import Verif.Props.Edit
import Verif.Props.Sign
import Verif.Props.Digest
import Verif.Props.Verify
import Verif.Props.Signer
import Verif.Props.Cli
import Verif.Props.SignVerify
import Verif.Props.Robust
import Verif.Props.Raw
import Verif.Props.Elf
import Verif.Props.ElfSign
import Verif.Props.ElfDigest
import Verif.Props.ElfInfo
import Verif.Props.ElfTotal
import Verif.Props.ElfVerify
import Verif.Props.ElfTamper
import Verif.Props.Commands
import Verif.Props.Keystore
import Verif.Props.CliDigest
import Verif.Props.Report
import Verif.Props.Config
import Verif.Props.Forge
import Verif.Props.Confusion
import Verif.Props.Program
import Verif.Props.Exit
import Verif.Props.Crash
import Verif.Props.VerifyOutput
import Verif.Model.CliInfo
import Verif.Props.InfoOutput
import Verif.Props.IsSigned
import Verif.Model.Proc
import Verif.Model.Serde
import Verif.Model.Clock
import Verif.SpecProc
import Verif.Proofs.Proc
import Verif.Proofs.Schedule
import Verif.Props.Schedule
import Verif.SpecGrammar
import Verif.Proofs.Grammar
import Verif.Props.Grammar
import Verif.SpecAnatomy
import Verif.Proofs.Anatomy
import Verif.Props.Anatomy
import Verif.Props.SignExact
import Verif.Props.SignAgain
import Verif.Props.Resign
import Verif.SpecFault
import Verif.Proofs.Fault
import Verif.Props.Fault
import Verif.Proofs.Utf8
import Verif.SpecElfAnatomy
import Verif.SpecSerde
import Verif.SpecWorld
import Verif.SpecTrust
import Verif.SpecLines
import Verif.SpecNoElf
import Verif.SpecInfo
import Verif.SpecNarrow
import Verif.Model.NoElf
import Verif.Model.NoElfCli
import Verif.Model.Narrow
import Verif.Proofs.NoElf
import Verif.Proofs.Narrow
import Verif.Proofs.NarrowMiss
import Verif.Proofs.ElfAnatomy
import Verif.Props.ElfAnatomy
import Verif.Proofs.ElfExact
import Verif.Props.ElfExact
import Verif.Proofs.ElfReadBack
import Verif.Props.ElfReadBack
import Verif.Proofs.ElfKept
import Verif.Proofs.Serde
import Verif.Proofs.World
import Verif.Props.ElfKept
import Verif.Props.Serde
import Verif.Props.Clock
import Verif.Props.World
import Verif.Props.Trust
import Verif.Props.VerifyLines
import Verif.Props.NoElf
import Verif.Props.InfoLines
import Verif.Props.Narrow
import Verif.Model.CliOut
import Verif.SpecOut
import Verif.SpecHandle
import Verif.Props.Out
import Verif.Props.Handle
import Verif.SpecUses
import Verif.Props.Uses
import Verif.Props.Stays
import Verif.Props.NoElfCli
import Verif.SpecOpenings
import Verif.Props.Openings
import Verif.SpecDocument
import Verif.Proofs.Document
import Verif.Props.Document
import Verif.SpecTorn
import Verif.Proofs.Torn
import Verif.Props.Torn
import Verif.Props.SignPanic
import Verif.SpecExit
import Verif.Props.ExitPanic
import Verif.Props.Stopped
import Verif.Props.NarrowBack
import Verif.Model.Args
import Verif.SpecArgs
import Verif.Proofs.Args
import Verif.Proofs.ArgsLex
import Verif.Proofs.ArgsFeed
import Verif.Proofs.ArgsLine
import Verif.Proofs.ArgsSay
import Verif.Props.Args
import Verif.SpecSession
import Verif.Props.Lines
import Verif.Model.Builds
import Verif.SpecBuilds
import Verif.Props.Builds
import Verif.Model.Messages
import Verif.Props.Messages
import Verif.Model.NarrowSign
import Verif.Proofs.NarrowSign
import Verif.Props.NarrowSign
import Verif.Model.Text
import Verif.SpecText
import Verif.Proofs.Text
import Verif.Props.Text
import Verif.Props.TextFlags
import Verif.Props.SignText
import Verif.Props.DigestText
import Verif.Props.Reads
import Verif.Proofs.InfoText
import Verif.Props.InfoText
import Verif.SpecQuick
import Verif.Props.Quick
import Verif.SpecNoElfAnatomy
import Verif.Proofs.NoElfAnatomy
import Verif.Props.NoElfAnatomy
import Verif.Model.BlockText
import Verif.SpecBlockText
import Verif.Proofs.BlockText
import Verif.Props.BlockText
import Verif.SpecSecret
import Verif.Props.Secret
import Verif.Model.NarrowTell
import Verif.Props.NarrowTell
import Verif.SpecOffsets
import Verif.Props.Offsets
import Verif.Props.Growth
import Verif.Props.Space
import Verif.SpecUnread
import Verif.Props.Unread
import Verif.SpecRoles
import Verif.Props.Roles
import Verif.SpecMix
import Verif.Props.Mix
