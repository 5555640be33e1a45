import Verif.Model.Extraction
import Verif.Model.SimData
/-
Model of the files of extinction coefficients as text: `save` in `/repo/ledsa/analysis/ExtinctionCoefficients.py` with the numbers as
written by `np.savetxt`, and their conversion back in `/repo/ledsa/postprocessing/simulation.py`. Numbers are rational (a floating
point number is one). Not modelled: `nan`, `inf`, quotation marks in the head of the file.
-/
namespace Ledsa

/-- Mantissa with `d + 1` digits and exponent of `'%.{d}e' % q` for `q ≥ 0`: the nearest such number, ties to even. -/
def sciPartsD (d : ℕ) (q : ℚ) : ℕ × ℤ :=
  if q = 0 then (0, 0)
  else
    let e := Int.log 10 q
    let m := (rne (q / (10 : ℚ) ^ (e - d))).toNat
    if m = 10 ^ (d + 1) then (10 ^ d, e + 1) else (m, e)

/-- `'%.{d}e' % q`, for `d > 0`. -/
def fmtSciD (d : ℕ) (q : ℚ) : Str :=
  (if q < 0 then ['-'] else []) ++ natStr ((sciPartsD d |q|).1 / 10 ^ d) ++ '.' :: zfill d (natStr ((sciPartsD d |q|).1 % 10 ^ d)) ++
    'e' :: expText (sciPartsD d |q|).2

/-- The fields of the head of a file that are not computed from others, as text. -/
structure CoeffHeader where
  channel : Str
  array : Str
  amount : Str
  bottom : Str
  top : Str
  camX : Str
  camY : Str
  camZ : Str
  property : Str
  refs : Str
  solver : Str
  lam : Str
  version : Str
  bottoms : List Str
  tops : List Str
  centres : List Str

/-- `str(self)`, /repo/ledsa/analysis/ExtinctionCoefficients.py 68-71, with `Experiment.__str__`, `Layers.__str__` and `Camera.__str__`,
/repo/ledsa/analysis/Experiment.py 63-64, 86-87, 164-168: four lines. -/
def CoeffHeader.about (h : CoeffHeader) : List Str :=
  ["channel: ".toList ++ h.channel ++ ", led_array: ".toList ++ h.array,
   "num_of_layers: ".toList ++ h.amount ++ ", bottom_border: ".toList ++ h.bottom ++ ", top_border: ".toList ++ h.top,
   "Camera: (".toList ++ h.camX ++ ", ".toList ++ h.camY ++ ", ".toList ++ h.camZ ++ ")".toList,
   "Reference_property: ".toList ++ h.property ++ ", Ref_img_indices: ".toList ++ h.refs ++ ", Solver: ".toList ++ h.solver ++
     ", Lambda_reg: ".toList ++ h.lam ++ ", LEDSA ".toList ++ h.version]

/-- The lines with the heights of the layers, /repo/ledsa/analysis/ExtinctionCoefficients.py 145-151. -/
def CoeffHeader.heights (h : CoeffHeader) : List Str :=
  ["Layer_bottom_height[m],".toList ++ joinChar ',' h.bottoms, "Layer_top_height[m],".toList ++ joinChar ',' h.tops,
   "Layer_center_height[m],".toList ++ joinChar ',' h.centres]

/-- The last line of the head, /repo/ledsa/analysis/ExtinctionCoefficients.py 152-154: there is always a `layer0`. -/
def columnLine (layers : ℕ) : Str :=
  "Experiment_Time[s],".toList ++ "layer0".toList ++ ((List.range (layers - 1)).map fun i => ",layer".toList ++ natStr (i + 1)).flatten

/-- A line of `np.savetxt(path, ..., delimiter=',')`, with the default format `'%.18e'`,
/repo/ledsa/analysis/ExtinctionCoefficients.py 159. -/
def savetxtLine (row : List ℚ) : Str := joinChar ',' (row.map (fmtSciD 18))

/-- `save`, /repo/ledsa/analysis/ExtinctionCoefficients.py 135-159, for times and coefficients of all images: `np.savetxt` puts `# ` in
front of every line of the head. -/
def coeffText (h : CoeffHeader) (layers : ℕ) (rows : List (ℚ × List ℚ)) : Str :=
  ((((h.about ++ h.heights ++ [columnLine layers]).map ("# ".toList ++ ·)) ++ rows.map fun r => savetxtLine (r.1 :: r.2)).map
    fun l => l ++ ['\n']).flatten

/-- `pd.read_csv(file, skiprows=7)` and the separation of the time column, /repo/ledsa/postprocessing/simulation.py 171-182. `conv` is
the conversion of a decimal number to a floating point number; empty lines are skipped. A file without the time column, with a field
that is no number or with rows of another length is not modelled (`none`). -/
def readCoeffText {K : Type} (conv : ℚ → K) (text : Str) : Option (ℕ × List (K × List K)) :=
  match ((splitChar '\n' text).drop 7).filter (· ≠ []) with
  | [] => none
  | head :: lines =>
    let cols := splitChar ',' head
    if cols.head? = some "# Experiment_Time[s]".toList then
      (lines.mapM fun l => match (splitChar ',' l).mapM readFloat with
        | some (t :: xs) => if xs.length = cols.length - 1 then some (conv t, xs.map conv) else none
        | _ => none).map fun rows => (cols.length - 1, rows)
    else none

end Ledsa
