import Verif.Model.ColourTables
import Verif.Model.Extinction

/-!
# An analysis object over its lifetime

`ExtinctionCoefficients`, `/repo/ledsa/analysis/ExtinctionCoefficients.py` 41-133 and 193-216: an object keeps what it has loaded and calculated.
Its attributes can be changed from outside. Simplifications: the distances of all LEDs can be calculated; the reference property is not
`led_array_id`, the one other column that is kept; a calculation with one core that fails for an image stores nothing (really the
coefficients of the images before it stay).
-/

namespace Ledsa

variable {W K R G C : Type}

/-- Where an object gets its data from: `load_img_data` for a property, /repo/ledsa/analysis/ExtinctionCoefficients.py 120-133, which may write
a binary file, and `calc_distance_array`, 161-175. -/
structure DataSources (W K R G : Type) where
  load : W → String → Except PyErr (ImgData K) × W
  rows : G → List R

/-- The attributes of an object, /repo/ledsa/analysis/ExtinctionCoefficients.py 41-66: settings; distances, loaded rows with the name of their
column, reference intensities, coefficients. -/
structure AnalysisObject (K R G C : Type) where
  prop : String
  ref : RefChoice
  geo : G
  dist : List R
  column : String
  data : ImgData K
  refs : List K
  stored : List C

/-- `__init__`, /repo/ledsa/analysis/ExtinctionCoefficients.py 41-66. -/
def AnalysisObject.new (prop : String) (ref : RefChoice) (geo : G) : AnalysisObject K R G C := ⟨prop, ref, geo, [], "", [], [], []⟩

/-- `self.calculated_img_data[self.reference_property]`, /repo/ledsa/analysis/ExtinctionCoefficients.py 81, 97 and 189: a column that was not loaded
raises `KeyError`. -/
def AnalysisObject.values (o : AnalysisObject K R G C) : Except PyErr (ImgData K) :=
  if o.prop = o.column then .ok o.data else .error .keyError

/-- The distances, /repo/ledsa/analysis/ExtinctionCoefficients.py 111-114. -/
def AnalysisObject.withDistances (s : DataSources W K R G) (o : AnalysisObject K R G C) : AnalysisObject K R G C :=
  if o.dist.isEmpty then { o with dist := s.rows o.geo } else o

/-- The data, /repo/ledsa/analysis/ExtinctionCoefficients.py 115-116. -/
def AnalysisObject.withData (s : DataSources W K R G) (o : AnalysisObject K R G C) (w : W) : Except PyErr Unit × AnalysisObject K R G C × W :=
  if o.data.isEmpty then match s.load w o.prop with
    | (.error e, w) => (.error e, o, w)
    | (.ok d, w) => (.ok (), { o with column := o.prop, data := d }, w)
  else (.ok (), o, w)

/-- The reference intensities, /repo/ledsa/analysis/ExtinctionCoefficients.py 117-118 and 177-191. -/
def AnalysisObject.withRefs [Field K] (o : AnalysisObject K R G C) : Except PyErr Unit × AnalysisObject K R G C :=
  if o.refs.isEmpty then match o.values with
    | .error e => (.error e, o)
    | .ok d => (.ok (), { o with refs := refIntensities o.ref d })
  else (.ok (), o)

/-- `set_all_member_variables`, /repo/ledsa/analysis/ExtinctionCoefficients.py 106-118. -/
def AnalysisObject.prepare [Field K] (s : DataSources W K R G) (o : AnalysisObject K R G C) (w : W) :
    Except PyErr Unit × AnalysisObject K R G C × W :=
  match (o.withDistances s).withData s w with
  | (.error e, o, w) => (.error e, o, w)
  | (.ok _, o, w) => match o.withRefs with
    | (.error e, o) => (.error e, o, w)
    | (.ok _, o) => (.ok (), o, w)

/-- `calc_and_set_coefficients(_mp)`, /repo/ledsa/analysis/ExtinctionCoefficients.py 73-104; `solve` gets the distances, the coefficients stored so far
and the relative intensities of an image. -/
def AnalysisObject.calculate [Field K] (s : DataSources W K R G) (solve : List R → ImgSolver K C) (parallel : Bool) (o : AnalysisObject K R G C)
    (w : W) : Except PyErr Unit × AnalysisObject K R G C × W :=
  match o.prepare s w with
  | (.error e, o, w) => (.error e, o, w)
  | (.ok _, o, w) => match o.values with
    | .error e => (.error e, o, w)
    | .ok d => match (if parallel then poolRel d o.refs else serialRel d o.refs) with
      | .error e => (.error e, o, w)
      | .ok rels =>
        let cs := if parallel then runPool (solve o.dist) rels o.stored else runSerial (solve o.dist) rels o.stored
        (.ok (), { o with stored := cs }, w)

/-- What may happen to an object: its settings are changed, the files change, coefficients are calculated. -/
inductive ObjectCall (W G : Type)
  | setProperty (p : String)
  | setReference (c : RefChoice)
  | setGeometry (g : G)
  | files (f : W → W)
  | calculate (parallel : Bool)

/-- One call; an exception is caught by the caller. -/
def AnalysisObject.act [Field K] (s : DataSources W K R G) (solve : List R → ImgSolver K C) (x : AnalysisObject K R G C × W) :
    ObjectCall W G → AnalysisObject K R G C × W
  | .setProperty p => ({ x.1 with prop := p }, x.2)
  | .setReference c => ({ x.1 with ref := c }, x.2)
  | .setGeometry g => ({ x.1 with geo := g }, x.2)
  | .files f => (x.1, f x.2)
  | .calculate parallel => (x.1.calculate s solve parallel x.2).2

/-- `load_img_data` on binary files without averaging, /repo/ledsa/analysis/ExtinctionCoefficients.py 128-133. -/
noncomputable def loadFrom (channel arr : ℕ) (path : Str) (w : HdfWorld) (prop : String) : Except PyErr (ImgData ℝ) × HdfWorld :=
  match readHdf w channel path with
  | (.error e, w) => (.error e, w)
  | (.ok f, w) => (frameData f prop arr, w)

/-- The method `apply_color_correction`, /repo/ledsa/analysis/ExtinctionCoefficients.py 193-216: the function of
/repo/ledsa/analysis/data_preparation.py with the first `nchannels` channels. It does not touch what the object has loaded. -/
noncomputable def methodColourCorrect {n : ℕ} (to16 : Int16Cast) (nan : ℤ) (M : Matrix (Fin n) (Fin n) ℚ) (prop : String) (nchannels : ℕ)
    (w : HdfWorld) : Except PyErr Unit × HdfWorld := colourCorrect to16 nan M prop (List.range nchannels) w

end Ledsa
