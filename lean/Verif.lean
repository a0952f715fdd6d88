import Verif.Base
import Verif.Model.Alias
import Verif.Model.Block
import Verif.Model.Checksum
import Verif.Model.CmdLine
import Verif.Model.Conc
import Verif.Model.Config
import Verif.Model.CrcArch
import Verif.Model.Enum
import Verif.Model.Extra
import Verif.Model.Gzip
import Verif.Model.Hash
import Verif.Model.HuffLib
import Verif.Model.Log
import Verif.Model.Message
import Verif.Model.Notify
import Verif.Model.Options
import Verif.Model.Pool
import Verif.Model.Race
import Verif.Model.Reader
import Verif.Model.Refusal
import Verif.Model.Share
import Verif.Model.Text
import Verif.Model.Token
import Verif.Model.Trace
import Verif.Model.Types
import Verif.Model.WConc
import Verif.Model.Writer
import Verif.Model.WriterApi
import Verif.Proof.Bits
import Verif.Proof.Checksum
import Verif.Proof.Cmd
import Verif.Proof.Conc
import Verif.Proof.ConcExec
import Verif.Proof.ConcLive
import Verif.Proof.ConcLog
import Verif.Proof.ConcRoom
import Verif.Proof.CrcArch
import Verif.Proof.Detect
import Verif.Proof.Dyn
import Verif.Proof.Extra
import Verif.Proof.Gunzip
import Verif.Proof.Huffman
import Verif.Proof.Json
import Verif.Proof.JsonText
import Verif.Proof.Notify
import Verif.Proof.Pool
import Verif.Proof.PoolW
import Verif.Proof.RAuto
import Verif.Proof.RBlock
import Verif.Proof.RBlockEv
import Verif.Proof.RBlocks
import Verif.Proof.RCounts
import Verif.Proof.RCut
import Verif.Proof.RDamage
import Verif.Proof.RDyn
import Verif.Proof.RExt
import Verif.Proof.RFit
import Verif.Proof.RFlat
import Verif.Proof.RFlush
import Verif.Proof.RFoot
import Verif.Proof.RGrammar
import Verif.Proof.RHead
import Verif.Proof.RHeadEv
import Verif.Proof.RHeads
import Verif.Proof.RHuff
import Verif.Proof.RInp
import Verif.Proof.RKeep
import Verif.Proof.RLevel
import Verif.Proof.RMono
import Verif.Proof.RNoHead
import Verif.Proof.RNorm
import Verif.Proof.ROut
import Verif.Proof.RPanic
import Verif.Proof.RPos
import Verif.Proof.RPosRun
import Verif.Proof.RRatio
import Verif.Proof.RRun
import Verif.Proof.RSafe
import Verif.Proof.RSalvage
import Verif.Proof.RSim
import Verif.Proof.RStream
import Verif.Proof.RStreamOk
import Verif.Proof.RTake
import Verif.Proof.RTell
import Verif.Proof.RTellAll
import Verif.Proof.RTellRun
import Verif.Proof.RTrack
import Verif.Proof.RTrees
import Verif.Proof.RVal
import Verif.Proof.RWhy
import Verif.Proof.RWhyHead
import Verif.Proof.RWhyRun
import Verif.Proof.RWord
import Verif.Proof.RefLib
import Verif.Proof.Rle
import Verif.Proof.SameBlocks
import Verif.Proof.Share
import Verif.Proof.Token
import Verif.Proof.Trace
import Verif.Proof.Unique
import Verif.Proof.WApi
import Verif.Proof.WBits
import Verif.Proof.WBlock
import Verif.Proof.WCall
import Verif.Proof.WDiv
import Verif.Proof.WDiv2
import Verif.Proof.WEvents
import Verif.Proof.WEvents2
import Verif.Proof.WFlow
import Verif.Proof.WForm
import Verif.Proof.WHead
import Verif.Proof.WLog
import Verif.Proof.WOpen
import Verif.Proof.WPieces
import Verif.Proof.WRun
import Verif.Proof.WSim
import Verif.Proof.WSim2
import Verif.Proof.WSize
import Verif.Proof.WWord
import Verif.Props.Accessors
import Verif.Props.Alias
import Verif.Props.Auto
import Verif.Props.BlockEvents
import Verif.Props.Blocked
import Verif.Props.Capture
import Verif.Props.Checksums
import Verif.Props.ChunkExamples
import Verif.Props.Chunking
import Verif.Props.CmdLine
import Verif.Props.Complaint
import Verif.Props.ComplaintAll
import Verif.Props.Conc
import Verif.Props.ConcExamples
import Verif.Props.CrcArch
import Verif.Props.Cut
import Verif.Props.Damage
import Verif.Props.Determines
import Verif.Props.Enum
import Verif.Props.EventSize
import Verif.Props.Extra
import Verif.Props.Format
import Verif.Props.Gunzip
import Verif.Props.Gzip
import Verif.Props.Hashes
import Verif.Props.Hints
import Verif.Props.Idle
import Verif.Props.Log
import Verif.Props.Options
import Verif.Props.Pieces
import Verif.Props.Platform
import Verif.Props.Pool
import Verif.Props.Position
import Verif.Props.RSession
import Verif.Props.RTiles
import Verif.Props.Race
import Verif.Props.Ratio
import Verif.Props.ReadAhead
import Verif.Props.ReadCalls
import Verif.Props.ReadExamples
import Verif.Props.ReaderBack
import Verif.Props.ReaderBits
import Verif.Props.ReaderEvents
import Verif.Props.ReaderFlush
import Verif.Props.ReaderForms
import Verif.Props.ReaderHeader
import Verif.Props.ReaderLevel
import Verif.Props.ReaderPlatform
import Verif.Props.ReaderReset
import Verif.Props.ReaderSafe
import Verif.Props.Reading
import Verif.Props.Recognise
import Verif.Props.Refusal
import Verif.Props.Refused
import Verif.Props.RoundTrip
import Verif.Props.Salvage
import Verif.Props.SameEvents
import Verif.Props.Session
import Verif.Props.SinkCalls
import Verif.Props.Story
import Verif.Props.StreamCount
import Verif.Props.Symbols
import Verif.Props.Text
import Verif.Props.Tiles
import Verif.Props.Trailing
import Verif.Props.Transfer
import Verif.Props.WBlockEvents
import Verif.Props.Wording
import Verif.Props.WriterCalls
import Verif.Props.WriterConc
import Verif.Props.WriterDelay
import Verif.Props.WriterDivision
import Verif.Props.WriterEvents
import Verif.Props.WriterFlush
import Verif.Props.WriterHeader
import Verif.Props.WriterOptions
import Verif.Props.WriterOutput
import Verif.Props.WriterPanic
import Verif.Props.WriterReset
import Verif.Props.WriterShape
import Verif.Props.WriterSize
import Verif.Spec.Api
import Verif.Spec.Bits
import Verif.Spec.BlockEvents
import Verif.Spec.Checksum
import Verif.Spec.Complaint
import Verif.Spec.Container
import Verif.Spec.Damage
import Verif.Spec.Deflate
import Verif.Spec.Huffman
import Verif.Spec.Json
import Verif.Spec.LooseTrace
import Verif.Spec.Padding
import Verif.Spec.Problem
import Verif.Spec.Refusal
import Verif.Spec.Size
import Verif.Spec.Snapshots
import Verif.Spec.Trace
import Verif.Spec.WBlockEvents
import Verif.Spec.Wording
