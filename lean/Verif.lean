import Verif.Py
import Verif.Tracker.Model
import Verif.Tracker.Spec
import Verif.Tracker.Lemmas
import Verif.Tracker.Invariants
import Verif.Tracker.ModalModel
import Verif.Tracker.ModalSpec
import Verif.Tracker.ModalLemmas
import Verif.Tracker.BaseLemmas
import Verif.Tracker.Props
import Verif.Np
import Verif.Sms.DspModel
import Verif.Sms.DspLemmas
import Verif.Sms.WindowModel
import Verif.Sms.WindowLemmas
import Verif.Sms.Props
import Verif.PyDict
import Verif.Learn.Model
import Verif.Learn.Spec
import Verif.Learn.Lemmas
import Verif.Learn.Props
import Verif.Sms.FitModel
import Verif.Sms.FitLemmas
import Verif.Sms.FitProps
import Verif.Sample.Model
import Verif.Sample.Spec
import Verif.Sample.Lemmas
import Verif.Sample.Props
import Verif.Dsp.DbModel
import Verif.Sample.SynthModel
import Verif.Sample.SynthProps
import Verif.Hinge.Model
import Verif.Hinge.Props
import Verif.Training.Model
import Verif.Training.Props
import Verif.Learn.RaceModel
import Verif.Learn.RaceProps
import Verif.Tracker.Parts
import Verif.Sample.FitModel
import Verif.Sample.FitSpec
import Verif.Sample.FitLemmas
import Verif.Sample.FitProps
import Verif.Utils.DeprecatedModel
import Verif.Utils.DeprecatedProps
import Verif.Utils.WarningsModel
import Verif.Utils.WarningsProps
import Verif.Optimize.Model
import Verif.Optimize.Props
import Verif.Out.Model
import Verif.Out.Spec
import Verif.Out.Lemmas
import Verif.Out.Functions
import Verif.Out.FormulaSpec
import Verif.Out.Props
import Verif.Out.Variants
import Verif.Psycho.ScaleModel
import Verif.Psycho.ScaleProps
import Verif.Dsp.NormalizeModel
import Verif.Dsp.NormalizeProps
import Verif.Dsp.DbProps
import Verif.Dsp.BisectModel
import Verif.Dsp.BisectProps
import Verif.Dsp.WindowsModel
import Verif.Dsp.WindowsSpec
import Verif.Dsp.WindowsProps
import Verif.Dsp.OnsetModel
import Verif.Dsp.OnsetSpec
import Verif.Dsp.OnsetLemmas
import Verif.Dsp.OnsetProps
import Verif.Psycho.MelModel
import Verif.Psycho.MelSpec
import Verif.Psycho.MelProps
import Verif.Psycho.BankModel
import Verif.Psycho.BankProps
import Verif.Psycho.GammatoneModel
import Verif.Psycho.GammatoneProps
import Verif.Psycho.T60Props
import Verif.Psycho.FilterbankModel
import Verif.Psycho.FilterbankProps
import Verif.Beat.BeatModel
import Verif.Beat.BeatSpec
import Verif.Beat.BeatProps
import Verif.Beat.BeatConvergence
import Verif.Beat.RegressionModel
import Verif.Beat.RegressionProps
import Verif.Beat.DecisionModel
import Verif.Beat.DecisionProps
import Verif.Eval.MetricsModel
import Verif.Eval.LpProps
import Verif.Eval.LossProps
import Verif.Eval.CochProps
import Verif.Eval.RandomModel
import Verif.Eval.RandomProps
import Verif.Widgets.ParseModel
import Verif.Widgets.ParseProps
import Verif.Widgets.ApplyModel
import Verif.Widgets.ApplyLemmas
import Verif.Widgets.ApplyProps
import Verif.Widgets.ApplyCbkProps
import Verif.Widgets.TrimModel
import Verif.Widgets.TrimProps
import Verif.Widgets.LockModel
import Verif.Widgets.LockProps
import Verif.Scripts.VersionModel
import Verif.Scripts.VersionProps
import Verif.Scripts.EvalModel
import Verif.Scripts.EvalLemmas
import Verif.Scripts.EvalProps
import Verif.Scripts.BenchModel
import Verif.Scripts.BenchProps
import Verif.Scripts.NbModel
import Verif.Scripts.NbProps
import Verif.Scripts.ExampleModel
import Verif.Scripts.ExampleProps
import Verif.Dsp.SpectrumModel
import Verif.Dsp.SpectrumProps
import Verif.Widgets.SessionModel
import Verif.Widgets.SessionProps
import Verif.Widgets.ProgressModel
import Verif.Widgets.ProgressProps
import Verif.Widgets.LaunchModel
import Verif.Widgets.LaunchProps
import Verif.Learn.EstModel
import Verif.Learn.EstLemmas
import Verif.Learn.EstSet
import Verif.Learn.EstFrame
import Verif.Learn.EstTotal
import Verif.Learn.EstClone
import Verif.Learn.EstStatic
import Verif.Learn.EstProps
import Verif.Learn.EstFactory
import Verif.Learn.OldModel
import Verif.Learn.OldTyped
import Verif.Learn.OldLemmas
import Verif.Learn.OldProps
import Verif.Widgets.FactoryProps
import Verif.Scripts.FiguresModel
import Verif.Scripts.FiguresProps
import Verif.Scripts.ReportModel
import Verif.Scripts.ReportProps
import Verif.Out.HtmlModel
import Verif.Out.HtmlProps
import Verif.Out.PlotsModel
import Verif.Out.PlotsProps
import Verif.Widgets.PlayerModel
import Verif.Widgets.PlayerProps
import Verif.Utils.AttrModel
import Verif.Utils.AttrProps
import Verif.Widgets.TkModel
import Verif.Widgets.TkProps
import Verif.Scripts.LogspaceModel
import Verif.Scripts.LogspaceProps
import Verif.Beat.ResidualModel
import Verif.Beat.ResidualProps
import Verif.Paths.Model
import Verif.Paths.Props
import Verif.Widgets.ExportModel
import Verif.Widgets.ExportProps
import Verif.Tracker.SeparatedSpec
import Verif.Tracker.SeparatedLemmas
import Verif.Tracker.SeparatedProps
import Verif.Tracker.PauseSpec
import Verif.Tracker.PauseProps
import Verif.Sms.SpectrumModel
import Verif.Sms.SpectrumSpec
import Verif.Sms.SpectrumLemmas
import Verif.Sms.SpectrumProps
import Verif.Sms.SimilarSpec
import Verif.Sms.SimilarLemmas
import Verif.Sms.SimilarProps
import Verif.Tracker.DecayLemmas
import Verif.Sample.DecaySpec
import Verif.Sample.DecayLemmas
import Verif.Sample.DecayProps
import Verif.Sample.RoundProps
import Verif.Sample.NoiseSpec
import Verif.Sample.NoiseLemmas
import Verif.Sample.NoiseProps
import Verif.Tracker.LastLemmas
import Verif.Sms.LastSpec
import Verif.Sms.LastLemmas
import Verif.Sms.LastProps
import Verif.Sms.PartialSpec
import Verif.Sms.PartialLemmas
import Verif.Sms.PartialProps
import Verif.Sample.PartialLemmas
import Verif.Sample.PartialProps
import Verif.Sms.DampedSpec
import Verif.Sms.DampedLemmas
import Verif.Sms.DampedProps
import Verif.Sample.DampedProps
import Verif.Sms.CosineSpec
import Verif.Sms.CosineLemmas
import Verif.Sms.CosineProps
import Verif.Sample.CosineProps
import Verif.Tracker.ExtendSpec
import Verif.Tracker.ExtendLemmas
import Verif.Sms.ExtendLemmas
import Verif.Sms.ExtendProps
import Verif.Tracker.RescaleSpec
import Verif.Tracker.RescaleLemmas
import Verif.Sms.RescaleSpec
import Verif.Sms.RescaleLemmas
import Verif.Sms.GainLemmas
import Verif.Sms.RescaleProps
import Verif.Sample.RescaleSpec
import Verif.Sample.RescaleLemmas
import Verif.Sample.RescaleProps
import Verif.Tracker.DelaySpec
import Verif.Tracker.DelayLemmas
import Verif.Sms.DelaySpec
import Verif.Sms.DelayLemmas
import Verif.Sms.DelayProps
import Verif.Sample.DelaySpec
import Verif.Sample.DelayLemmas
import Verif.Sample.DelayProps
import Verif.Out.TypesModel
import Verif.Out.TypesSpec
import Verif.Out.TypesLemmas
import Verif.Out.TypesProps
import Verif.Float.Ieee
import Verif.Float.Basic
import Verif.Float.PeakModel
import Verif.Float.PeakLemmas
import Verif.Float.PeakProps
import Verif.Float.NormalizeModel
import Verif.Float.NormalizeProps
import Verif.Float.BisectModel
import Verif.Float.BisectProps
import Verif.Float.HingeModel
import Verif.Float.HingeProps
import Verif.Float.BeatModel
import Verif.Float.BeatProps
import Verif.Float.BinModel
import Verif.Float.BinProps
import Verif.Float.SynthModel
import Verif.Float.SynthLemmas
import Verif.Float.SynthProps
import Verif.Float.EnergyModel
import Verif.Float.EnergyProps
import Verif.Psycho.AttrModel
import Verif.Psycho.AttrProps
import Verif.Psycho.CarrierProps
import Verif.Float.TrackerModel
import Verif.Float.TrackerSpec
import Verif.Float.TrackerLemmas
import Verif.Float.TrackerProps
import Verif.Float.ModalModel
import Verif.Float.ModalSpec
import Verif.Float.ModalLemmas
import Verif.Float.ModalProps
import Verif.Float.FitModel
import Verif.Float.FitSpec
import Verif.Float.FitLemmas
import Verif.Float.FitProps
import Verif.Float.StartModel
import Verif.Float.StartProps
import Verif.Float.SampleModel
import Verif.Float.SampleLemmas
import Verif.Float.SampleProps
import Verif.Float.PredictModel
import Verif.Float.PredictProps
import Verif.Sample.SeedModel
import Verif.Sample.SeedProps
import Verif.Beat.StateModel
import Verif.Beat.StateProps
import Verif.Beat.CompareModel
import Verif.Beat.CompareProps
import Verif.Beat.IdentLemmas
import Verif.Beat.IdentProps
import Verif.Sample.FloorSpec
import Verif.Sample.FloorLemmas
import Verif.Sample.FloorProps
import Verif.Hinge.StateModel
import Verif.Hinge.StateProps
import Verif.Sample.StateModel
import Verif.Sample.StateProps
import Verif.Out.ShapeModel
import Verif.Out.ShapeLemmas
import Verif.Out.ShapeProps
import Verif.Float.TrimModel
import Verif.Float.TrimProps
import Verif.Float.FrameModel
import Verif.Float.FrameProps
import Verif.Float.OnsetModel
import Verif.Float.OnsetProps
import Verif.Float.RandomModel
import Verif.Float.RandomProps
import Verif.Out.ScalarProps
import Verif.Psycho.SpectrogramModel
import Verif.Psycho.SpectrogramProps
import Verif.Psycho.BankCallModel
import Verif.Psycho.BankCallProps
import Verif.Out.WebAudioModel
import Verif.Out.WebAudioProps
import Verif.Widgets.TabModel
import Verif.Widgets.TabProps
import Verif.Beat.FreqClipModel
import Verif.Beat.FreqClipProps
import Verif.Dsp.ComplexDbModel
import Verif.Dsp.ComplexDbProps
import Verif.Out.PlayerModel
import Verif.Out.PlayerProps
import Verif.Out.TimerModel
import Verif.Out.TimerProps
import Verif.Scripts.WriteModel
import Verif.Scripts.WriteProps
import Verif.Utils.NamedModel
import Verif.Utils.NamedProps
import Verif.Widgets.StyleModel
import Verif.Widgets.StyleProps
