import Verif.Props.Mpi
import Verif.Props.Chunks
import Verif.Props.Step
import Verif.Props.Hwp
import Verif.Props.Init
import Verif.Props.Signal
import Verif.Props.Alm
import Verif.Props.Spin
import Verif.Props.Quat
import Verif.Props.Angles
import Verif.Props.Optics
import Verif.Props.HwpModels
import Verif.Props.Data
import Verif.Props.ImplementScan
import Verif.Props.Beam
import Verif.Props.BeamMore
import Verif.Props.Band
import Verif.Props.FocalPlane
import Verif.Props.Timeline
import Verif.Props.Spinmaps
import Verif.Props.Convolution
import Verif.Props.Plate
import Verif.Props.BeamCoef
import Verif.Props.Schedule
import Verif.Props.Satellite
import Verif.Props.MapMaking
import Verif.Props.Filters
import Verif.Props.ScanInstrument
import Verif.Props.WholeScans
import Verif.Props.ScanApi
import Verif.Props.ScanStored
import Verif.Model.Spmd
import Verif.Spec.Spmd
import Verif.Lemmas.Spmd
import Verif.Lemmas.SpmdScan
import Verif.Lemmas.SpmdLoop
import Verif.Lemmas.Unbinned
import Verif.Lemmas.GenericMemmap
import Verif.Props.Spmd
import Verif.Model.Strategies
import Verif.Spec.Strategies
import Verif.Lemmas.Strategies
import Verif.Props.Strategies
import Verif.Model.Interrupted
import Verif.Spec.Interrupted
import Verif.Lemmas.Interrupted
import Verif.Props.Interrupted
import Verif.Spec.Reuse
import Verif.Lemmas.Reuse
import Verif.Props.Reuse
import Verif.Spec.ReuseStored
import Verif.Props.ReuseStored
import Verif.Spec.GroundScan
import Verif.Lemmas.GroundScan
import Verif.Lemmas.GroundGeneric
import Verif.Props.GroundScan
import Verif.Spec.Double
import Verif.Model.Double
import Verif.Lemmas.Double
import Verif.Props.Double
import Verif.Spec.InterruptedGround
import Verif.Lemmas.InterruptedGround
import Verif.Props.InterruptedGround
import Verif.Model.ScanFiltered
import Verif.Spec.ScanFiltered
import Verif.Lemmas.ScanFilteredSim
import Verif.Lemmas.ScanFiltered
import Verif.Lemmas.GroundFiltered
import Verif.Props.ScanFiltered
import Verif.Props.GroundFiltered
import Verif.Model.Detpair
import Verif.Spec.Detpair
import Verif.Lemmas.Detpair
import Verif.Props.Detpair
import Verif.Model.ScanObjects
import Verif.Spec.ScanObjects
import Verif.Lemmas.ScanObjects
import Verif.Props.ScanObjects
import Verif.Props.ObjectsKept
import Verif.Spec.ObjectsGround
import Verif.Lemmas.ObjectsGround
import Verif.Props.ObjectsGround
import Verif.Spec.FocalScan
import Verif.Lemmas.FocalScan
import Verif.Props.FocalScan
import Verif.Model.MpiSetup
import Verif.Spec.MpiSetup
import Verif.Props.MpiSetup
import Verif.Model.Ranks
import Verif.Spec.Ranks
import Verif.Props.Ranks
import Verif.Model.Solve
import Verif.Spec.Solve
import Verif.Props.Solve
import Verif.Model.Plot
import Verif.Spec.Plot
import Verif.Props.Plot
import Verif.Props.InputPlane
import Verif.Model.LoadPlane
import Verif.Spec.LoadPlane
import Verif.Props.LoadPlane
import Verif.Spec.Maxwell
import Verif.Lemmas.Oblique
import Verif.Props.Maxwell
import Verif.Spec.ThinFilm
import Verif.Props.ThinFilm
import Verif.Spec.Light
import Verif.Props.Light
import Verif.Spec.AnyPlate
import Verif.Lemmas.AnyPlate
import Verif.Lemmas.PlateAngle
import Verif.Props.AnyPlate
import Verif.Props.PlateAngle
import Verif.Model.PlateSetting
import Verif.Props.PlateSetting
import Verif.Spec.AlignedPlate
import Verif.Lemmas.AlignedPlate
import Verif.Props.AlignedPlate
import Verif.Model.Jones
import Verif.Props.Jones
import Verif.Model.Crew
import Verif.Spec.Crew
import Verif.Lemmas.Crew
import Verif.Props.Crew
import Verif.Spec.CrossTalk
import Verif.Lemmas.CrossTalk
import Verif.Props.CrossTalk
import Verif.Spec.MapPlate
import Verif.Props.MapPlate
import Verif.Props.Jitter
import Verif.Spec.BeamLinear
import Verif.Lemmas.BeamLinear
import Verif.Props.BeamLinear
import Verif.Spec.PairDiff
import Verif.Props.PairDiff
import Verif.Spec.CommonModes
import Verif.Lemmas.CommonModes
import Verif.Props.CommonModes
import Verif.Spec.Rebin
import Verif.Props.Rebin
import Verif.Spec.Uniform
import Verif.Props.Uniform
import Verif.Spec.Turning
import Verif.Props.Turning
import Verif.Spec.AngleError
import Verif.Props.AngleError
import Verif.Spec.Tables
import Verif.Lemmas.Tables
import Verif.Props.Tables
import Verif.Spec.Losses
import Verif.Lemmas.Losses
import Verif.Props.Losses
import Verif.Spec.Files
import Verif.Lemmas.Files
import Verif.Props.Files
import Verif.Spec.BothWays
import Verif.Lemmas.BothWays
import Verif.Props.BothWays
import Verif.Spec.BeamTurn
import Verif.Props.BeamTurn
import Verif.Spec.Reorder
import Verif.Props.Reorder
import Verif.Spec.BestFit
import Verif.Props.BestFit
import Verif.Lemmas.FilterAny
import Verif.Props.FilterAny
import Verif.Spec.FilteredLinear
import Verif.Props.FilteredLinear
import Verif.Props.FilteredFocal
import Verif.Props.FilterRefused
import Verif.Props.Noise
import Verif.Props.NullTest
