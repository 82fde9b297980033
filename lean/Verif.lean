import Verif.Props.Names
import Verif.Props.Storage
import Verif.Props.Saver
import Verif.Props.SaverFaults
import Verif.Props.Crash
import Verif.Props.Collate
import Verif.Props.Option
import Verif.Props.Scheduler
import Verif.Props.Lightning
import Verif.Props.DataId
import Verif.Props.MergeLogs
import Verif.Props.Singleton
import Verif.Props.Config
import Verif.Props.Grad
import Verif.Props.Stats
import Verif.Props.Runs
import Verif.Props.Ekfac
import Verif.Props.Psd
import Verif.Props.Refinalize
import Verif.Props.Mask
import Verif.Props.Clear
import Verif.Props.Load
import Verif.Props.Hessian
import Verif.Props.Offload
import Verif.Props.Dist
import Verif.Props.Precondition
import Verif.Props.InflExample
import Verif.Props.Influence
import Verif.Props.Modes
import Verif.Props.Groups
import Verif.Props.Labels
import Verif.Props.Repeat
import Verif.Props.InflExample2
import Verif.Props.InfluenceAll
import Verif.Props.InflAllExample
import Verif.Props.SessionHooks
import Verif.Props.SessionSave
import Verif.Props.SessionIso
import Verif.Props.SessionHeap
import Verif.Props.SessionOutside
import Verif.Props.SessionSum
import Verif.Props.SessionExample
import Verif.Lemmas.SessionStats
import Verif.Lemmas.SessionBook
import Verif.Spec.SessionStats
import Verif.Props.SessionStats
import Verif.Props.SessionStatsExample
import Verif.Spec.SessionInfluence
import Verif.Props.SessionInfluence
import Verif.Props.SessionInfluenceExample
import Verif.Model.Modules
import Verif.Spec.Modules
import Verif.Lemmas.Walk
import Verif.Lemmas.Modules
import Verif.Props.Watch
import Verif.Props.WatchExample
import Verif.Lemmas.Lora
import Verif.Lemmas.LoraStep
import Verif.Lemmas.LoraInv
import Verif.Lemmas.LoraCall
import Verif.Props.Lora
import Verif.Props.LoraForward
import Verif.Props.LoraGrad
import Verif.Props.LoraExample
import Verif.Model.Frontend
import Verif.Props.Frontend
import Verif.Model.Codec
import Verif.Spec.Codec
import Verif.Lemmas.Skel
import Verif.Lemmas.Codec
import Verif.Lemmas.Stored
import Verif.Lemmas.Returns
import Verif.Lemmas.Flat
import Verif.Props.EndToEnd
import Verif.Props.EndToEndExample
import Verif.Spec.SessionStored
import Verif.Lemmas.SessionStored
import Verif.Props.SessionStored
import Verif.Props.SessionStoredExample
import Verif.Spec.Pca
import Verif.Lemmas.Pca
import Verif.Lemmas.PcaVectors
import Verif.Lemmas.LoraVals
import Verif.Lemmas.PcaWeights
import Verif.Props.Pca
import Verif.Props.PcaExample
import Verif.Spec.Compress
import Verif.Lemmas.Compress
import Verif.Props.Compress
import Verif.Props.CompressExample
import Verif.Props.Tiles
import Verif.Props.TilesExample
import Verif.Model.HuggingFace
import Verif.Spec.HuggingFace
import Verif.Lemmas.HuggingFace
import Verif.Props.HuggingFace
import Verif.Props.HuggingFaceExample
import Verif.Spec.Determined
import Verif.Lemmas.Determined
import Verif.Props.Determined
import Verif.Props.DeterminedExample
import Verif.Spec.Formula
import Verif.Lemmas.Formula
import Verif.Props.Formula
import Verif.Props.FormulaExample
import Verif.Props.Restore
import Verif.Props.LightningInfluence
import Verif.Props.LightningExample
import Verif.Spec.Dist
import Verif.Lemmas.DistState
import Verif.Props.DistState
import Verif.Props.DistStateExample
import Verif.Lemmas.Eigenbasis
import Verif.Spec.Ekfac
import Verif.Props.EkfacScores
import Verif.Props.EkfacScoresExample
import Verif.Model.LoraIO
import Verif.Spec.LoraIO
import Verif.Lemmas.LoraWF
import Verif.Lemmas.LoraIO
import Verif.Props.LoraIO
import Verif.Props.LoraIOExample
import Verif.Props.LoraConfig
import Verif.Props.LoraConfigExample
import Verif.Props.BatchIds
import Verif.Lemmas.DistEkfac
import Verif.Props.EkfacDist
import Verif.Props.EkfacDistExample
import Verif.Spec.ConvGroups
import Verif.Props.ConvGroups
import Verif.Spec.ModelModule
import Verif.Props.ModelModule
import Verif.Spec.Damping
import Verif.Lemmas.Gram
import Verif.Props.Damping
import Verif.Lemmas.SessionNames
import Verif.Spec.SessionSaves
import Verif.Props.SessionSaves
import Verif.Props.SessionSamples
import Verif.Props.SessionSamplesExample
import Verif.Spec.SessionScores
import Verif.Props.SessionScores
import Verif.Props.SessionScoresExample
import Verif.Spec.SelfBatches
import Verif.Props.SelfBatches
import Verif.Props.SelfBatchesExample
import Verif.Model.SelfInfluence
import Verif.Props.TrainerSelf
import Verif.Props.TrainerSelfExample
import Verif.Spec.Success
import Verif.Lemmas.Success
import Verif.Lemmas.SuccessHess
import Verif.Lemmas.RealLib
import Verif.Props.Success
import Verif.Props.SuccessLogged
import Verif.Props.SuccessExample
import Verif.Model.TokenIds
import Verif.Spec.TokenIds
import Verif.Props.TokenIds
import Verif.Model.Trainers
import Verif.Spec.Trainers
import Verif.Props.Trainers
import Verif.Spec.SessionOnce
import Verif.Props.SessionOnce
import Verif.Props.SessionOnceExample
import Verif.Spec.GradOnly
import Verif.Props.GradOnly
import Verif.Props.GradOnlyExample
import Verif.Spec.Devices
import Verif.Props.Devices
import Verif.Props.DevicesExample
import Verif.Model.InfluenceEffects
import Verif.Props.LogsKept
import Verif.Props.FormulaModes
import Verif.Props.FormulaModesExample
import Verif.Spec.SessionReturns
import Verif.Lemmas.SessionReturns
import Verif.Lemmas.SessionFine
import Verif.Lemmas.SessionSteps
import Verif.Props.SessionReturns
import Verif.Props.SessionReturnsExample
import Verif.Spec.FullMask
import Verif.Props.FullMask
import Verif.Spec.SessionDirectory
import Verif.Props.SessionDirectory
import Verif.Props.SessionDirectoryExample
import Verif.Spec.Padding
import Verif.Props.TokenStats
import Verif.Props.TokenScores
import Verif.Props.Padding
import Verif.Props.PaddingExample
import Verif.Props.MaskBackward
import Verif.Props.MaskedReturns
import Verif.Model.DistSession
import Verif.Spec.DistSession
import Verif.Lemmas.DistSession
import Verif.Props.DistSession
import Verif.Props.DistSessionExample
import Verif.Lemmas.InStep
import Verif.Props.InStep
import Verif.Props.InStepExample
import Verif.Spec.Batching
import Verif.Lemmas.Batching
import Verif.Props.Batching
import Verif.Props.BatchingExample
import Verif.Spec.SampleAlone
import Verif.Props.SampleAlone
import Verif.Props.SampleAloneExample
import Verif.Spec.LoraLog
import Verif.Props.LoraLog
import Verif.Props.LoraLogExample
import Verif.Spec.LoraStats
import Verif.Props.LoraStats
import Verif.Props.LoraScores
import Verif.Props.LoraScoresExample
import Verif.Spec.DefaultDamping
import Verif.Props.DefaultDamping
import Verif.Props.DefaultDampingExample
import Verif.Spec.ModuleOrder
import Verif.Props.ModuleOrder
import Verif.Props.ModuleOrderExample
import Verif.Spec.LossScale
import Verif.Props.LossScale
import Verif.Props.LossScaleExample
import Verif.Spec.Repeated
import Verif.Props.Repeated
import Verif.Props.RepeatedExample
import Verif.Props.RepeatedSession
import Verif.Props.RepeatedSessionExample
import Verif.Spec.SessionEkfac
import Verif.Props.SessionEkfac
import Verif.Props.SessionEkfacExample
import Verif.Spec.LoraState
import Verif.Props.LoraState
import Verif.Props.LoraStateExample
import Verif.Spec.Turned
import Verif.Lemmas.Turned
import Verif.Props.Turned
import Verif.Props.TurnedExample
import Verif.Spec.ReadAll
import Verif.Props.ReadAll
import Verif.Props.ReadAllExample
import Verif.Spec.NewProcess
import Verif.Spec.LightningPasses
import Verif.Props.NewProcess
import Verif.Props.NewProcessExample
import Verif.Spec.LoaderModes
import Verif.Props.LoaderModes
import Verif.Props.LoaderModesExample
import Verif.Model.LogDtype
import Verif.Spec.LogDtype
import Verif.Lemmas.LogDtype
import Verif.Props.LogDtype
import Verif.Props.LogDtypeExample
import Verif.Props.LargeDamping
import Verif.Spec.Leverage
import Verif.Props.Leverage
import Verif.Props.LoraTwice
import Verif.Props.NoPrecondition
import Verif.Props.OtherModules
import Verif.Spec.AverageSelf
import Verif.Props.AverageSelf
import Verif.Spec.Bilinear
import Verif.Props.Bilinear
import Verif.Props.MeanSquare
import Verif.Spec.Testing
import Verif.Props.Testing
import Verif.Spec.Interfaces
import Verif.Props.Interfaces
import Verif.Spec.AllOpened
import Verif.Props.AllOpened
import Verif.Props.WholeWrites
import Verif.Props.OneSample
import Verif.Spec.WholeMetadata
import Verif.Props.WholeMetadata
