import Verif.Props.Acceptance
import Verif.Props.Alignment
import Verif.Props.AmbientLight
import Verif.Props.Amount
import Verif.Props.Analysis
import Verif.Props.AnalysisConfig
import Verif.Props.AnalysisObject
import Verif.Props.Argv
import Verif.Props.Arrays
import Verif.Props.AveragedSmoke
import Verif.Props.Averaging
import Verif.Props.Batch
import Verif.Props.BenchRun
import Verif.Props.Binary
import Verif.Props.BorderSpots
import Verif.Props.Bounded
import Verif.Props.BrightnessDrift
import Verif.Props.CameraPosition
import Verif.Props.CameraShift
import Verif.Props.Cli
import Verif.Props.ColourTables
import Verif.Props.Concurrent
import Verif.Props.ConcurrentLoad
import Verif.Props.Config
import Verif.Props.ConfigLines
import Verif.Props.Coordinates
import Verif.Props.CrossTalk
import Verif.Props.CutCoefficients
import Verif.Props.DarkLeds
import Verif.Props.DarkNonlinear
import Verif.Props.Demo
import Verif.Props.DemoSetup
import Verif.Props.DenserSmoke
import Verif.Props.Detection
import Verif.Props.Displacement
import Verif.Props.DistancesFile
import Verif.Props.Downwards
import Verif.Props.EdgeDialog
import Verif.Props.EndToEnd
import Verif.Props.ExitStatus
import Verif.Props.ExperimentObject
import Verif.Props.Exposure
import Verif.Props.ExposureChecker
import Verif.Props.ExtcoTable
import Verif.Props.ExtcoUnion
import Verif.Props.Extinction
import Verif.Props.Extraction
import Verif.Props.FileHead
import Verif.Props.FinerLayers
import Verif.Props.FitRestart
import Verif.Props.FitWarnings
import Verif.Props.Frames
import Verif.Props.Geometry
import Verif.Props.Haze
import Verif.Props.Heights
import Verif.Props.ImageInfos
import Verif.Props.Images
import Verif.Props.Interrupted
import Verif.Props.KilledSteps
import Verif.Props.LedModel
import Verif.Props.ListOptions
import Verif.Props.Locality
import Verif.Props.Losses
import Verif.Props.Matching
import Verif.Props.MatchingRounded
import Verif.Props.MergeChanged
import Verif.Props.MergedBench
import Verif.Props.MoreLeds
import Verif.Props.Moved
import Verif.Props.Nonlinear
import Verif.Props.NonlinearErrors
import Verif.Props.NonlinearRun
import Verif.Props.NonlinearUnit
import Verif.Props.Numbering
import Verif.Props.Photometry
import Verif.Props.Picture
import Verif.Props.Pipeline
import Verif.Props.PlaneFit
import Verif.Props.Plots
import Verif.Props.Positions
import Verif.Props.Prompts
import Verif.Props.RayGeometry
import Verif.Props.RayRuns
import Verif.Props.ReadTable
import Verif.Props.Rename
import Verif.Props.RenameFiles
import Verif.Props.RenameLog
import Verif.Props.Robust
import Verif.Props.RoundedAnalysis
import Verif.Props.RoundedNonlinear
import Verif.Props.RoundedRun
import Verif.Props.Rounding
import Verif.Props.SavedNumbers
import Verif.Props.Schedule
import Verif.Props.SearchArea
import Verif.Props.Session
import Verif.Props.SetupKill
import Verif.Props.SimData
import Verif.Props.SimParams
import Verif.Props.Smoothing
import Verif.Props.Solver
import Verif.Props.Startup
import Verif.Props.Step1
import Verif.Props.Step2
import Verif.Props.Step3
import Verif.Props.StoppedDialog
import Verif.Props.Supplements
import Verif.Props.Supplements2
import Verif.Props.Time
import Verif.Props.TornResults
import Verif.Props.Unseen
import Verif.Props.WholePixels
import Verif.Props.WholeRun
import Lean.Util.CollectAxioms
import Lean.Elab.Command
/-
Audit: every theorem of the namespace `Ledsa` depends only on the three standard axioms of Lean. The build fails
otherwise.
-/
open Lean Elab Command

/-- Fail if a theorem in the namespace depends on an axiom other than the standard ones. -/
elab "#audit_axioms" : command => do
  let env ← getEnv
  let allowed : List Name := [``propext, ``Classical.choice, ``Quot.sound]
  let mut n : Nat := 0
  for (name, info) in env.constants.map₁.toList do
    if (`Ledsa).isPrefixOf name then
      if let .thmInfo _ := info then
        let axs ← liftCoreM (collectAxioms name)
        for a in axs do
          unless allowed.contains a do
            throwError "{name} depends on {a}"
        n := n + 1
  logInfo m!"{n} theorems depend only on propext, Classical.choice, Quot.sound"

#audit_axioms
