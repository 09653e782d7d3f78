import Verif.Basic
import Verif.RingModel
import Verif.RingSpec
import Verif.RingLemmas
import Verif.RingProps
import Verif.SpscModel
import Verif.SpscProps
import Verif.AllocModel
import Verif.AllocProps
import Verif.SearchModel
import Verif.SearchProps
import Verif.SkipListModel
import Verif.SkipListProps
import Verif.DataReqModel
import Verif.DataReqProps
import Verif.HistoryProps
import Verif.WaitingModel
import Verif.WaitingProps
import Verif.LifecycleModel
import Verif.LifecycleProps
import Verif.ProtocolModel
import Verif.ProtocolProps
import Verif.RegistryModel
import Verif.RegistryProps
import Verif.CleanupModel
import Verif.CleanupProps
import Verif.TsCheckModel
import Verif.TsCheckProps
import Verif.PipelineModel
import Verif.PipelineProps
import Verif.RecordModel
import Verif.RecordProps
import Verif.TpHandlerModel
import Verif.TpHandlerProps
import Verif.StitchModel
import Verif.StitchProps
import Verif.ThreadModel
import Verif.ThreadProps
import Verif.FrameErrModel
import Verif.FrameErrProps
import Verif.FileModel
import Verif.FileProps
import Verif.ConsumeModel
import Verif.ConsumeProps
import Verif.EmuModel
import Verif.EmuProps
import Verif.MiscModel
import Verif.MiscProps
import Verif.DispatchModel
import Verif.DispatchProps
import Verif.FormatModel
import Verif.FormatProps
import Verif.ZeroCopyModel
import Verif.ZeroCopyProps
import Verif.TpEmuModel
import Verif.TpEmuProps
import Verif.TpgModel
import Verif.TpgSpec
import Verif.TpgLemmas
import Verif.TpgWindow
import Verif.TpgRuns
import Verif.TpgSplit
import Verif.TpgProps
import Verif.ExpandModel
import Verif.ExpandSpec
import Verif.ExpandProps
import Verif.ViewModel
import Verif.ViewProps
import Verif.ExpandTpg
import Verif.SessionModel
import Verif.SessionProps
import Verif.ConfModel
import Verif.ConfProps
import Verif.MonitorModel
import Verif.MonitorProps
import Verif.CardModel
import Verif.CardProps
import Verif.DestroyModel
import Verif.DestroyProps
import Verif.ProcModel
import Verif.ProcProps
import Verif.SyncModel
import Verif.SyncProps
import Verif.FirModel
import Verif.FirProps
import Verif.ListLinkModel
import Verif.ListLinkProps
import Verif.RouteModel
import Verif.RouteProps
import Verif.ConsumerModel
import Verif.ConsumerProps
import Verif.TpChainModel
import Verif.TpChainProps
import Verif.RegConcModel
import Verif.RegConcProps
import Verif.ConfGenModel
import Verif.ConfGenProps
import Verif.LinkTpModel
import Verif.LinkTpProps
import Verif.RaceModel
import Verif.RaceProps
import Verif.ConcReqModel
import Verif.ConcReqWp
import Verif.ConcReqProps
import Verif.EmuLinkModel
import Verif.EmuLinkProps
import Verif.PdsLinkModel
import Verif.PdsLinkProps
import Verif.TpRunsModel
import Verif.TpRunsProps
import Verif.MonReqModel
import Verif.MonReqProps
import Verif.MonTpModel
import Verif.MonTpProps
import Verif.RecSessModel
import Verif.RecSessProps
import Verif.StopLinkModel
import Verif.StopLinkProps
import Verif.RetryModel
import Verif.RetryProps
import Verif.RetainModel
import Verif.RetainProps
import Verif.RecModModel
import Verif.RecModProps
import Verif.RecModDirect
import Verif.GenSetModel
import Verif.GenSetProps
import Verif.ValidModel
import Verif.ValidProps
import Verif.PdsKeepModel
import Verif.PdsKeepProps
import Verif.RawLinkModel
import Verif.RawLinkProps
import Verif.PdsEmuModel
import Verif.PdsEmuProps
import Verif.FdModel
import Verif.FdProps
import Verif.FakeTsModel
import Verif.FakeTsProps
import Verif.ConcListModel
import Verif.ConcListProps
import Verif.PinModel
import Verif.PinProps
import Verif.ListLifeModel
import Verif.ListLifeProps
import Verif.ConcProtModel
import Verif.ConcProtProps
import Verif.ConcRecModel
import Verif.ConcRecProps
import Verif.EmuRateModel
import Verif.EmuRateProps
import Verif.ConfLinkModel
import Verif.ConfLinkProps
import Verif.MemProps
import Verif.CmdModel
import Verif.CmdProps
import Verif.WorkCmdModel
import Verif.WorkCmdProps
import Verif.TpgLifeModel
import Verif.TpgLifeProps
import Verif.MonBufModel
import Verif.MonBufProps
import Verif.ReplayModel
import Verif.ReplayProps
import Verif.FakeTrigModel
import Verif.FakeTrigProps
import Verif.CompModel
import Verif.CompProps
import Verif.Unpack2Model
import Verif.Unpack2Props
import Verif.FileDirect
import Verif.RecSessDirect
import Verif.InjectModel
import Verif.InjectProps
import Verif.ListMemModel
import Verif.ListMemProps
import Verif.PacLifeModel
import Verif.PacLifeProps
import Verif.ConcCleanModel
import Verif.ConcCleanProps
import Verif.WordsModel
import Verif.WordsProps
import Verif.RawTpModel
import Verif.RawTpProps
import Verif.SrcFileModel
import Verif.SrcFileProps
import Verif.ErrRateModel
import Verif.ErrRateProps
import Verif.PaceModel
import Verif.PaceProps
import Verif.ConcRecProgress
import Verif.DataReqWindow
