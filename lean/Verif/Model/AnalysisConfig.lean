import Verif.Model.Ini
import Verif.Model.Extinction
/-
Model of the configuration of the analysis: a new configuration file, and the start of an analysis up to the loop over LED arrays
and channels (loading of the parameters, questions for missing ones).
`analysis/ConfigDataAnalysis.py`, `analysis/ExperimentData.py`, `core/parser_arguments_run.py`.
-/
namespace Ledsa

/-- Options of the analysis configuration, /repo/ledsa/analysis/ConfigDataAnalysis.py 9-14. -/
inductive AKey
  | numCores | refProperty | numRefImages | refImgIndices | cameraChannels | averageImages | solver | weightPref | weightCurv
  | numIterations | lambdaReg | cameraPosition | ledArrays | numLayers | domainBounds
deriving DecidableEq, Repr

/-- A comment entry. -/
def aNote (s : String) : Str × Option AKey := (s.toList, none)

/-- An option; the constructor puts three spaces in front of the name. -/
def aOpt (s : String) (a : AKey) : Str × Option AKey := ("   ".toList ++ s.toList, some a)

/-- The entries of a new configuration, /repo/ledsa/analysis/ConfigDataAnalysis.py 53-85; names are converted to lower case. -/
def newAnalysisEntries : List (Str × List (Str × Option AKey)) :=
  [("DEFAULT".toList,
    [aNote "# variables used in multiple parts of ledsa",
     aNote "   # number of cpus, multicore processing is applied if > 1",
     aOpt "num_cores" .numCores,
     aOpt "reference_property" .refProperty,
     aNote "   # number images used to compute normalize led intensities",
     aOpt "num_ref_images" .numRefImages,
     aNote "   # indices of reference images to use",
     aOpt "ref_img_indices" .refImgIndices,
     aNote "   # camera channels to be considered in the analysis",
     aOpt "camera_channels" .cameraChannels,
     aNote "   # intensities are computed as average from two consecutive images if set to true ",
     aOpt "average_images" .averageImages,
     aNote "   # extinction coefficients can be computed by linear or numeric solver ",
     aOpt "solver" .solver,
     aNote "   # options for nonlinear solver (ignored when linear solver is used) ",
     aOpt "weighting_preference" .weightPref,
     aOpt "weighting_curvature" .weightCurv,
     aOpt "num_iterations" .numIterations,
     aNote "   # options for linear solver (ignored when nonlinear solver is used) ",
     aOpt "lambda_reg" .lambdaReg]),
   ("experiment_geometry".toList,
    [aNote "# global x y z position of the camera ",
     aOpt "camera_position" .cameraPosition]),
   ("model_parameters".toList,
    [aNote "# parameters regarding the discretization of the spatial domain ",
     aNote "   # led arrays for that the extinction coefficients should be computed  ",
     aOpt "led_array_indices" .ledArrays,
     aNote "   # number of horizontal smoke layers  ",
     aOpt "num_layers" .numLayers,
     aNote "   # lower and upper bounds of the computational domain  ",
     aOpt "domain_bounds" .domainBounds])]

/-- The contents of a new configuration in memory, /repo/ledsa/analysis/ConfigDataAnalysis.py 53-85; `v` are the texts
`str(argument)`. -/
def newAnalysisConfig (v : AKey → Str) : Ini :=
  newAnalysisEntries.map fun s => (s.1, s.2.map fun i => (i.1, i.2.map fun a => [v a]))

/-- Section and name under which an option is looked up, /repo/ledsa/analysis/ExperimentData.py 71-105 and
/repo/ledsa/postprocessing/simulation.py 62. -/
def aKeyName : AKey → Str × Str
  | .numCores => ("DEFAULT".toList, "num_cores".toList)
  | .refProperty => ("DEFAULT".toList, "reference_property".toList)
  | .numRefImages => ("DEFAULT".toList, "num_ref_images".toList)
  | .refImgIndices => ("DEFAULT".toList, "ref_img_indices".toList)
  | .cameraChannels => ("DEFAULT".toList, "camera_channels".toList)
  | .averageImages => ("DEFAULT".toList, "average_images".toList)
  | .solver => ("DEFAULT".toList, "solver".toList)
  | .weightPref => ("DEFAULT".toList, "weighting_preference".toList)
  | .weightCurv => ("DEFAULT".toList, "weighting_curvature".toList)
  | .numIterations => ("DEFAULT".toList, "num_iterations".toList)
  | .lambdaReg => ("DEFAULT".toList, "lambda_reg".toList)
  | .cameraPosition => ("experiment_geometry".toList, "camera_position".toList)
  | .ledArrays => ("model_parameters".toList, "led_array_indices".toList)
  | .numLayers => ("model_parameters".toList, "num_layers".toList)
  | .domainBounds => ("model_parameters".toList, "domain_bounds".toList)

/-- The options as seen by `config[section][option]`; `none`: the option does not exist. -/
abbrev ACfg := AKey → Option Str

/-- The options of a configuration. Options with several lines or without value do not occur among those modelled. -/
def aCfgOf (c : Ini) : ACfg := fun k =>
  match lookup c (aKeyName k).1 (aKeyName k).2 with
  | some (some [x]) => some x
  | _ => none

/-- The analysis while it is started: configuration in memory, configuration file, questions asked. -/
structure AWorld where
  cfg : ACfg
  file : ACfg
  asked : List AKey

/-- What a step of the program gives: the world, and a value or an exception. -/
abbrev ARes (α : Type) := AWorld × Except PyErr α

/-- A program. -/
abbrev AProg (α : Type) := AWorld → ARes α

/-- Sequence. -/
def AProg.andThen {α β : Type} (p : AProg α) (f : α → AProg β) : AProg β := fun w =>
  match p w with
  | (w, .ok a) => f a w
  | (w, .error e) => (w, .error e)

/-- A step without effects. -/
def AProg.pure {α : Type} (x : Except PyErr α) : AProg α := fun w => (w, x)

/-- `config[section][option]`. -/
def getKey (k : AKey) : AProg Str := fun w =>
  match w.cfg k with
  | none => (w, .error .keyError)
  | some v => (w, .ok v)

/-- `get_list_of_values`, /repo/ledsa/analysis/ConfigDataAnalysis.py 114-147, for a conversion of the items; any failure gives the
fallback `None`. -/
def listValue {α : Type} (conv : Str → Except PyErr α) (v : Option Str) : Option (List α) :=
  match v with
  | none => none
  | some raw =>
    let s := strip raw
    if lower s = "none".toList ∨ s = [] then none
    else match (splitWs s).mapM conv with
      | .ok l => some l
      | .error _ => none

/-- `get_list_of_values` in a program. -/
def getList {α : Type} (conv : Str → Except PyErr α) (k : AKey) : AProg (Option (List α)) := fun w =>
  (w, .ok (listValue conv (w.cfg k)))

/-- `in_...(); save()`, /repo/ledsa/analysis/ConfigDataAnalysis.py 106-112 and 149-181. An answer may depend on the questions before
it. Texts with a single percent sign are rejected. -/
def askA (ans : List AKey → AKey → Str) (k : AKey) : AProg Unit := fun w =>
  if percentOk (ans w.asked k) then
    let c : ACfg := fun j => if j = k then some (ans w.asked k) else w.cfg j
    (⟨c, c, w.asked ++ [k]⟩, .ok ())
  else ({ w with asked := w.asked ++ [k] }, .error .valueError)

/-- A list option that is asked for if it is not set or unreadable, /repo/ledsa/analysis/ExperimentData.py 85-101. -/
def listOrAsk {α : Type} (conv : Str → Except PyErr α) (ans : List AKey → AKey → Str) (k : AKey) : AProg (Option (List α)) :=
  (getList conv k).andThen fun l => (match l with
    | some _ => AProg.pure (.ok ())
    | none => askA ans k).andThen fun _ => getList conv k

/-- Which reference images: ids, or the number of the first ones. -/
inductive RefOption
  | ids (l : List Int)
  | first (n : Int)
deriving DecidableEq

/-- Parameters of the solver as loaded. -/
inductive SolverOption (F : Type)
  | nonlinear (pref curv : F) (iterations : Int)
  | linear (lam : F)
  | unset
deriving DecidableEq

/-- The attributes of `ExperimentData`. -/
structure ASettings (F : Type) where
  layers : Int
  lo : F
  hi : F
  cam : F × F × F
  channels : Option (List Int)
  arrays : Option (List Int)
  ref : RefOption
  solver : Str
  params : SolverOption F
  property : Str
  cores : Int
deriving DecidableEq

/-- `int(config[section][option])`. -/
def getInt (k : AKey) : AProg Int := (getKey k).andThen fun s => .pure (pyInt s)

/-- `float(config[section][option])`. -/
def getFloat {F : Type} (float : Str → Except PyErr F) (k : AKey) : AProg F := (getKey k).andThen fun s => .pure (float s)

/-- Reference images, /repo/ledsa/analysis/ExperimentData.py 73-75. -/
def getRef : AProg RefOption :=
  (getList pyInt .refImgIndices).andThen fun l => match l with
    | some l => .pure (.ok (.ids l))
    | none => (getInt .numRefImages).andThen fun n => .pure (.ok (.first n))

/-- Parameters of the solver, /repo/ledsa/analysis/ExperimentData.py 76-82. -/
def getParams {F : Type} (float : Str → Except PyErr F) (s : Str) : AProg (SolverOption F) :=
  if s = "nonlinear".toList then
    (getFloat float .weightPref).andThen fun p => (getFloat float .weightCurv).andThen fun c =>
      (getInt .numIterations).andThen fun n => .pure (.ok (.nonlinear p c n))
  else if s = "linear".toList then (getFloat float .lambdaReg).andThen fun l => .pure (.ok (.linear l))
  else .pure (.ok .unset)

/-- `Layers(num_layers, *domain_bounds)`, /repo/ledsa/analysis/ExperimentData.py 103, Experiment.py 51-58: two bounds, and
`np.linspace` needs a number of points that is not negative. -/
def makeLayers {F : Type} (n : Int) (bounds : Option (List F)) : Except PyErr (F × F) :=
  match bounds with
  | some [lo, hi] => if n + 1 < 0 then .error .valueError else .ok (lo, hi)
  | _ => .error .typeError

/-- `Camera(*camera_position)`, /repo/ledsa/analysis/ExperimentData.py 104. -/
def makeCamera {F : Type} (pos : Option (List F)) : Except PyErr (F × F × F) :=
  match pos with
  | some [x, y, z] => .ok (x, y, z)
  | _ => .error .typeError

/-- `ExperimentData.load_config_parameters`, /repo/ledsa/analysis/ExperimentData.py 65-106. `float` is Python's conversion of a text.
The last line, which reads `config.ini`, is left out. -/
def loadParameters {F : Type} (float : Str → Except PyErr F) (ans : List AKey → AKey → Str) : AProg (ASettings F) :=
  (getInt .numLayers).andThen fun n =>
  (getList pyInt .cameraChannels).andThen fun channels =>
  getRef.andThen fun ref =>
  (getKey .solver).andThen fun solver =>
  (getParams float solver).andThen fun params =>
  (getKey .refProperty).andThen fun property =>
  (listOrAsk pyInt ans .ledArrays).andThen fun arrays =>
  (listOrAsk float ans .domainBounds).andThen fun bounds =>
  (listOrAsk float ans .cameraPosition).andThen fun pos =>
  (AProg.pure (makeLayers n bounds)).andThen fun b =>
  (AProg.pure (makeCamera pos)).andThen fun cam =>
  (getInt .numCores).andThen fun cores =>
  .pure (.ok ⟨n, b.1, b.2, cam, channels, arrays, ref, solver, params, property, cores⟩)

/-- `if config[section][option] == 'None': ask; save`. -/
def askIfNone (ans : List AKey → AKey → Str) (k : AKey) : AProg Unit :=
  (getKey k).andThen fun v => if v = "None".toList then askA ans k else .pure (.ok ())

/-- `ExperimentData.request_config_parameters`, /repo/ledsa/analysis/ExperimentData.py 108-125. -/
def requestParameters (ans : List AKey → AKey → Str) : AProg Unit :=
  (askIfNone ans .cameraPosition).andThen fun _ => (askIfNone ans .numLayers).andThen fun _ =>
  (askIfNone ans .domainBounds).andThen fun _ => askIfNone ans .ledArrays

/-- The analyses made: pairs of LED array and channel, /repo/ledsa/core/parser_arguments_run.py 218-219. Iterating over `None`
raises `TypeError`. -/
def analysisPairs (arrays channels : Option (List Int)) : Except PyErr (List (Int × Int)) :=
  match arrays with
  | none => .error .typeError
  | some [] => .ok []
  | some (a :: as) => match channels with
    | none => .error .typeError
    | some cs => .ok ((a :: as).flatMap fun a => cs.map fun c => (a, c))

/-- The start of an analysis, /repo/ledsa/core/parser_arguments_run.py 200-219: settings and the pairs of array and channel. -/
def startAnalysis {F : Type} (float : Str → Except PyErr F) (ans : List AKey → AKey → Str) :
    AProg (ASettings F × List (Int × Int)) :=
  (loadParameters float ans).andThen fun s => (requestParameters ans).andThen fun _ =>
    (AProg.pure (analysisPairs s.arrays s.channels)).andThen fun l => .pure (.ok (s, l))

/-- `ExperimentData(load_config_file=False)`, /repo/ledsa/analysis/ExperimentData.py 46-63: the parameters are taken from the new
configuration in memory. -/
def newExperimentData {F : Type} (float : Str → Except PyErr F) (ans : List AKey → AKey → Str) (v : AKey → Str) :
    ARes (ASettings F) :=
  loadParameters float ans ⟨aCfgOf (newAnalysisConfig v), aCfgOf (newAnalysisConfig v), []⟩

end Ledsa
