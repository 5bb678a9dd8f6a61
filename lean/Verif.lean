import Verif.SH.Proto
import Verif.SH.ProtoProps
import Verif.SH.Types
import Verif.SH.HookId
import Verif.SH.Registry
import Verif.SH.ListLemmas
import Verif.SH.HookIdLemmas
import Verif.SH.RegInv
import Verif.SH.RegAdd
import Verif.SH.RegRemove
import Verif.SH.RegUnload
import Verif.SH.RegPause
import Verif.SH.RegOps
import Verif.SH.RegProps
import Verif.SH.RegOffers
import Verif.SH.Loop
import Verif.SH.LoopPos
import Verif.SH.LoopRemove
import Verif.SH.LoopNext
import Verif.SH.LoopInv
import Verif.SH.LoopTr
import Verif.SH.LoopStep
import Verif.SH.LoopNote
import Verif.SH.LoopRun
import Verif.SH.LoopHist
import Verif.SH.LoopEx
import Verif.SH.LoopTrack
import Verif.SH.LoopFollow
import Verif.SH.LoopProps
import Verif.SH.LoopFault
import Verif.SH.LoopOrder
import Verif.SH.LoopRes
import Verif.SH.LoopDone
import Verif.SH.LoopPair
import Verif.SH.LoopIface
import Verif.SH.LoopResult
import Verif.SH.LoopStat
import Verif.SH.LoopNest
import Verif.SH.LoopRecall
import Verif.SH.LoopUnload
import Verif.SH.ThunkReg
import Verif.SH.LoopThunk
import Verif.SH.LoopThunkProps
import Verif.C.Buf
import Verif.Util.Text
import Verif.Util.TextLemmas
import Verif.Util.TextProps
import Verif.Util.Path
import Verif.Util.PathCmpProps
import Verif.Util.RelatizeProps
import Verif.Util.Misc
import Verif.Util.MiscProps
import Verif.Util.Iface
import Verif.Util.IfaceLemmas
import Verif.Util.IfaceProps
import Verif.Cont.List
import Verif.Cont.ListLemmas
import Verif.Cont.ListProps
import Verif.Cont.Vec
import Verif.Cont.VecProps
import Verif.Cont.VecMore
import Verif.Cont.Stack
import Verif.Cont.StackProps
import Verif.Cont.Hash
import Verif.Cont.HashLemmas
import Verif.Cont.HashProps
import Verif.Page.Alloc
import Verif.Page.AllocLemmas
import Verif.Page.AllocProps
import Verif.Page.Mem
import Verif.Page.MemProps
import Verif.Page.CurProps
import Verif.Page.MapsText
import Verif.Page.MapsLemmas
import Verif.Page.MapsProps
import Verif.Page.Thunk
import Verif.Page.ThunkProps
import Verif.Page.GenBuf
import Verif.Page.GenBufProps
import Verif.SH.Autogen
import Verif.SH.AutogenProps
import Verif.Cont.Str
import Verif.Cont.StrProps
import Verif.Cont.Copy
import Verif.Cont.CopyProps
import Verif.Mgr.Model
import Verif.Mgr.Steps
import Verif.Mgr.Sound
import Verif.Mgr.Inv
import Verif.Mgr.IdProps
import Verif.Mgr.StatusProps
import Verif.Mgr.EventProps
import Verif.Mgr.AllProps
import Verif.Mgr.AliasProps
import Verif.Mgr.ConProps
import Verif.Mgr.UnloadAllProps
import Verif.Mgr.LoadProps
import Verif.Loader.Backend
import Verif.Loader.BackendProps
import Verif.Loader.Model
import Verif.Loader.Inv
import Verif.Loader.EntryProps
import Verif.Loader.Table
import Verif.Loader.TableProps
import Verif.Gen.Context
import Verif.Gen.ContextInv
import Verif.Gen.ContextProps
import Verif.Loader.PatchProps
import Verif.Loader.BridgeProps
import Verif.Core.Model
import Verif.Core.Inv
import Verif.Core.QueryProps
import Verif.Core.ListenProps
import Verif.Core.PluginFile
import Verif.Core.PluginLine
import Verif.Core.PluginPathProps
import Verif.Core.PluginFileProps
import Verif.Core.Vdf
import Verif.Core.VdfProps
import Verif.Core.Console
import Verif.Core.ConsoleProps
import Verif.Core.Report
import Verif.Core.ReportProps
import Verif.Loader.GameInfo
import Verif.Loader.GameInfoProps
import Verif.Jit.Asm
import Verif.Jit.Decode
import Verif.Jit.AsmLemmas
import Verif.Jit.AsmProps
import Verif.Jit.Machine
import Verif.Jit.MachLemmas
import Verif.Jit.PubFunc
import Verif.Jit.PubProps
import Verif.Jit.HookFunc
import Verif.Jit.HookSpec
import Verif.Jit.HookInv
import Verif.Jit.HookCode
import Verif.Jit.HookExec
import Verif.Jit.HookParts
import Verif.Jit.HookEnd
import Verif.Jit.HookPush
import Verif.Jit.HookLoop
import Verif.Jit.HookWhole
import Verif.Jit.HookBody
import Verif.Jit.HookProps
import Verif.Jit.HookAccept
import Verif.Jit.HookAcceptProps
import Verif.SH.MemFunc
import Verif.SH.MemFuncProps
import Verif.Util.Elf
import Verif.Util.ElfProps
import Verif.Prov.UserMsg
import Verif.Prov.UserMsgProps
import Verif.Prov.ConReg
import Verif.Prov.ConRegProps
import Verif.Prov.CmdList
import Verif.Prov.CmdListProps
import Verif.Prov.Source2
import Verif.Prov.Source2Props
import Verif.SH.PiBuilder
import Verif.SH.PiBuilderProps
import Verif.Jit32.Asm
import Verif.Jit32.Decode
import Verif.Jit32.AsmSpec
import Verif.Jit32.AsmLemmas
import Verif.Jit32.AsmProps
import Verif.Jit32.Machine
import Verif.Jit32.MachLemmas
import Verif.Jit32.PubFunc
import Verif.Jit32.Exec
import Verif.Jit32.PubProps
import Verif.Jit32.HookFunc
import Verif.Jit32.HookAccept
import Verif.Jit32.HookAcceptProps
import Verif.Jit32.HookSpec
import Verif.Jit32.HookInv
import Verif.Jit32.HookRun
import Verif.Jit32.HookCopy
import Verif.Jit32.HookPush
import Verif.Jit32.HookParts
import Verif.Jit32.HookRet
import Verif.Jit32.HookLoop
import Verif.Jit32.HookCode
import Verif.Jit32.HookFit
import Verif.Jit32.HookEnter
import Verif.Jit32.HookWhole
import Verif.Jit32.HookProps
import Verif.Jit32.FloatProps
import Verif.Jit32.HookFindings
import Verif.Core.Bridges
import Verif.Core.BridgesInv
import Verif.Core.BridgesProps
import Verif.Core.Sources
import Verif.Core.SourcesProps
import Verif.Core.Commands
import Verif.Core.CommandsProps
import Verif.Shw.Worker
import Verif.Shw.Expr
import Verif.Shw.ExprSound
import Verif.Shw.Tmpl
import Verif.Shw.Repl
import Verif.Shw.Sect
import Verif.Shw.Run
import Verif.Shw.Props
import Verif.Shw.Blank
import Verif.Deleg.Model
import Verif.Deleg.Lemmas
import Verif.Deleg.Props
import Verif.Jit.RuleSpec
import Verif.Jit.RuleLemmas
import Verif.Jit.RuleRun
import Verif.Jit.RuleProps
import Verif.Jit32.RuleSpec
import Verif.Jit32.RuleLemmas
import Verif.Jit32.RuleRun
import Verif.Jit32.RuleProps
import Verif.Jit32.ClassSpec
import Verif.Jit32.ClassRun
import Verif.Jit32.ClassProps
import Verif.Jit.ClassSpec
import Verif.Jit.ClassRun
import Verif.Jit.ClassProps
import Verif.Jit.ParamProps
import Verif.Jit.Alike
import Verif.Jit.AlikeObj
import Verif.Jit32.AlikeObj
import Verif.Jit.PlainSpec
import Verif.Jit.PlainRun
import Verif.Jit.PlainProps
import Verif.Page.MemOther
import Verif.Page.MemOtherProps
import Verif.Page.Trap
import Verif.Page.TrapProps
import Verif.Prov.KvFile
import Verif.Prov.KvFileProps
import Verif.Prov.KvFile2
import Verif.Jit32.PrevRun
import Verif.Jit32.PrevProps
import Verif.Jit.PrevProps
import Verif.Shw.Hopter
import Verif.Shw.HopLemmas
import Verif.Shw.HopSteps
import Verif.Shw.HopProps
import Verif.SH.TakeBack
import Verif.SH.TakeBackLemmas
import Verif.SH.TakeBackProps
import Verif.Build.Version
import Verif.Build.VersionLemmas
import Verif.Build.VersionProps
import Verif.Prov.Engines
import Verif.Prov.EnginesProps
import Verif.Sample.Sample
import Verif.Sample.SampleProps
import Verif.Loader.Fatal
import Verif.Loader.FatalProps
import Verif.Loader.Dedicated
import Verif.Loader.DedicatedProps
import Verif.SH.Manual
import Verif.SH.ManualProps
import Verif.Cont.HashAlt
import Verif.Cont.HashAltProps
import Verif.Build.Search
import Verif.Build.SearchProps
import Verif.Build.Package
import Verif.Build.PackageProps
import Verif.Build.Plugin
import Verif.Build.PluginProps
import Verif.Build.PluginVersion
import Verif.Build.PluginVersionProps
import Verif.Build.Metadata
import Verif.Build.MetadataProps
import Verif.Build.GitHead
import Verif.Build.GitHeadProps
import Verif.Build.Bootstrap
import Verif.Build.BootstrapProps
