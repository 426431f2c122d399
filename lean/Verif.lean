import Verif.Basic
import Verif.Props.Endian
import Verif.Props.Sha256
import Verif.Props.Scrypt
import Verif.Props.Aes
import Verif.Props.Params
import Verif.Props.Util
import Verif.Props.Enc
import Verif.Props.EncAuth
import Verif.Props.EncMisc
import Verif.Props.EncEx
import Verif.Props.Entropy
import Verif.Props.Readpass
import Verif.Props.Misc
import Verif.Props.Parsenum
import Verif.Props.Getopt
import Verif.Props.CommandLine
import Verif.Props.Main
import Verif.Props.MainRun
import Verif.Props.MainEx
import Verif.Props.CpuRate
import Verif.Props.CpuAccuracy
import Verif.Props.NoCrash
import Verif.Props.Process
import Verif.Props.ProcessTotal
import Verif.Props.ProcessIndep
import Verif.Props.ProcessForced
import Verif.Props.Salts
import Verif.Props.ProcessEx
import Verif.Props.Cost
import Verif.Props.CpuHistory
import Verif.Props.Wipe
import Verif.Props.Asprintf
import Verif.Props.Utility
import Verif.Props.UtilityEx
import Verif.Props.Picked
import Verif.Props.Enough
import Verif.Model.EncSteps
import Verif.Props.Interrupted
import Verif.Props.Memory
import Verif.Props.Twins
import Verif.Props.Prefix
import Verif.Proofs.AesInj
import Verif.Props.KeyStream
import Verif.Props.Verbose
import Verif.Props.VerboseOnly
import Verif.Model.MainSteps
import Verif.Props.Killed
import Verif.Spec.Refusal
import Verif.Props.Refusal
import Verif.Model.Threads
import Verif.Proofs.Threads
import Verif.Props.Threads
import Verif.Props.ThreadsAes
import Verif.Model.WarnState
import Verif.Spec.Diagnostics
import Verif.Props.Diagnostics
import Verif.Spec.PassTalk
import Verif.Props.PassTalk
import Verif.Props.PassTalkMain
import Verif.Props.Account
import Verif.Model.Services
import Verif.Spec.Services
import Verif.Props.Services
import Verif.Model.Residue
import Verif.Model.Access
import Verif.Spec.Visits
import Verif.Props.Residue
import Verif.Props.CpuProcess
import Verif.Props.SelectOnce
import Verif.Props.DiagThreads
import Verif.Props.SameFile
import Verif.Props.ThreadsAlone
import Verif.Props.Access
import Verif.Props.AccessHash
import Verif.Props.Overlap
import Verif.Props.AccessEnc
import Verif.Props.OverlapHash
import Verif.Props.GetoptHeap
import Verif.Props.Recover
import Verif.Props.RecoverEx
import Verif.Props.ForkEx
import Verif.Props.Defined
import Verif.Props.Commit
import Verif.Props.InPlace
import Verif.Props.Taken
import Verif.Model.Handle
import Verif.Proofs.Handle
import Verif.Props.Handle
import Verif.Spec.Left
import Verif.Props.Left
import Verif.Spec.Register
import Verif.Props.Register
import Verif.Spec.FileLog
import Verif.Props.FileLog
import Verif.Props.ScErrno
import Verif.Props.NumberAny
import Verif.Props.NoTable
import Verif.Props.FloatPrefix
import Verif.Props.SameSalt
import Verif.Props.BrokenHw
import Verif.Props.Spelling
import Verif.Props.CpuForget
import Verif.Props.AccessB
import Verif.Props.SizeBack
import Verif.Props.Stronger
import Verif.Props.WrongPass
import Verif.Props.EncLooks
import Verif.Props.Damage
