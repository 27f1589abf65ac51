import Verif.Model.FitEqe
import Verif.Model.Depletion

/-!
# The sensors of the catalogue

`e2v_ccd97`, `e2v_ccd203` and `tektronix_tk512cb` in `optika/sensors/materials`, `e2v_ccd64_thick` and
`e2v_ccd64_thin` in `optika/sensors/materials/depletion`, and the cache `optika.memory`,
`optika/_caching.py`.  Lengths are in ångström.

The numbers in the data files are parameters.  `joblib.Memory` is taken to store a copy of the result of
the first call and to return a new object in every later call.
-/

namespace Optika

/-- One micrometre in ångström. -/
def micrometre : ℝ := 10000

/-- The sensors of the catalogue. -/
inductive Catalogued
  | ccd97
  | ccd203
  | tk512cb
  deriving DecidableEq

/-- What the sensors of the catalogue are made from: the minimizers, the optical constants, and the rows of
the data files.  `hc` is the product of Planck's constant and the speed of light, in eV Å. -/
structure Library where
  minimizer : ScalarMinimizer
  box : BoxMinimizer
  nOxideDefault : ℝ → ℂ
  nOxide : ℝ → ℂ
  nSilicon : ℝ → ℂ
  iqy : ℝ → ℝ → ℝ
  fano : ℝ → ℝ → ℝ
  /-- `Chemical("Si").absorption` -/
  absorption : ℝ → Option ℝ
  hc : ℝ
  /-- `_e2v_ccd64_thick_stern2004.csv`: energies in keV and mean charge capture -/
  thick : List (ℝ × ℝ)
  /-- `_e2v_ccd64_thin_stern2004.csv` -/
  thin : List (ℝ × ℝ)
  /-- `e2v_ccd97_qe_moody2017.csv`: energies in eV and efficiencies in percent -/
  moody : List (ℝ × ℝ)
  /-- `e2v_ccd97_qe_heymes2020.csv`: wavelengths in nm and efficiencies in percent -/
  heymes : List (ℝ × ℝ)
  /-- `e2v_ccd203_qe_boerner2012.csv`: four times a wavelength in Å and an efficiency -/
  boerner : List ((ℝ × ℝ) × (ℝ × ℝ) × (ℝ × ℝ) × (ℝ × ℝ))

/-- A sensor of the catalogue. -/
structure CatalogueSensor where
  material : SiliconMaterial
  depletion : DepletionModel
  measured : List (ℝ × ℝ)

namespace Library
variable (l : Library)

/-- `energy.to(u.AA, equivalencies=u.spectral())`, for energies in eV. -/
noncomputable def wavelengthOf (energy : ℝ) : Option ℝ := div? l.hc energy

/-- The measurements of a depletion region, `_e2v_ccd64_thick.py` and `_e2v_ccd64_thin.py` lines 88–100. -/
noncomputable def mccMeasured (file : List (ℝ × ℝ)) : Option (List (ℝ × ℝ)) :=
  file.mapM fun p => do return (← l.wavelengthOf (1000 * p.1), p.2)

/-- `e2v_ccd64_thick`, `_e2v_ccd64_thick.py` lines 86–107. -/
noncomputable def ccd64Thick : Option DepletionModel := do
  fitDepletion l.minimizer (15 * micrometre) l.absorption (16 * micrometre) (← l.mccMeasured l.thick)

/-- `e2v_ccd64_thin`, `_e2v_ccd64_thin.py` lines 86–107. -/
noncomputable def ccd64Thin : Option DepletionModel := do
  fitDepletion l.minimizer (8 * micrometre) l.absorption (16 * micrometre) (← l.mccMeasured l.thin)

/-- The measured efficiencies: `_e2v_ccd97.py` lines 20–43, `_e2v_ccd203.py` lines 18–43 and
`_tektronix_tk512cb.py` lines 16–57. -/
noncomputable def eqeMeasured : Catalogued → Option (List (ℝ × ℝ))
  | .ccd97 => do
    let moody ← l.moody.mapM fun p => do return (← l.wavelengthOf p.1, p.2 / 100)
    return moody ++ l.heymes.map fun p => (p.1 * nanometre, p.2 / 100)
  | .ccd203 => some <| l.boerner.map fun r =>
    ((r.1.1 + r.2.1.1 + r.2.2.1.1 + r.2.2.2.1) / 4, (r.1.2 + r.2.1.2 + r.2.2.1.2 + r.2.2.2.2) / 4)
  | .tk512cb => some [(13.3, 0.91), (23.6, 0.80), (44.7, 0.48), (67.6, 0.32), (114.0, 0.42), (135.5, 0.86),
    (171.4, 0.82), (256.0, 0.60), (303.8, 0.58), (461.0, 0.53), (584.0, 0.30), (736.0, 0.085),
    (1215.5, 0.055), (2537.0, 0.06), (3650.0, 0.09), (4050.0, 0.29)]

/-- `thickness_substrate`: `_e2v_ccd97.py` line 46, `_e2v_ccd203.py` line 46, `_tektronix_tk512cb.py`
line 60. -/
noncomputable def substrate : Catalogued → ℝ
  | .ccd97 => 14 * micrometre
  | .ccd203 => 16 * micrometre
  | .tk512cb => 7 * micrometre

/-- `depletion`: `_e2v_ccd97.py` line 47, `_e2v_ccd203.py` line 47, `_tektronix_tk512cb.py` line 61. -/
noncomputable def depletion : Catalogued → Option DepletionModel
  | .ccd97 => l.ccd64Thick
  | .ccd203 => l.ccd64Thick
  | .tk512cb => l.ccd64Thin

/-- `_e2v_ccd97`, `_e2v_ccd203`, `_tektronix_tk512cb`: the results that are cached, with the default
temperature of `fit_eqe`, 300 K. -/
noncomputable def fitted (d : Catalogued) : Option CatalogueSensor := do
  let measured ← l.eqeMeasured d
  let depletion ← l.depletion d
  return ⟨fitEqe l.box l.nOxideDefault l.nOxide l.nSilicon l.iqy l.fano (substrate d) measured 300,
    depletion, measured⟩

/-- `result.temperature = temperature`, `_e2v_ccd97.py` line 220, `_e2v_ccd203.py` line 171,
`_tektronix_tk512cb.py` line 184. -/
noncomputable def setTemperature (s : CatalogueSensor) (temperature : ℝ) : CatalogueSensor :=
  { s with material := { s.material with temperature := temperature } }

end Library

/-- What has been cached, and the objects that have been returned so far. -/
structure Session where
  cache : Catalogued → Option CatalogueSensor
  objects : List CatalogueSensor

/-- `e2v_ccd97(temperature)`, lines 219–221; `e2v_ccd203`, lines 170–172; `tektronix_tk512cb`, lines
183–185. -/
noncomputable def Library.call (l : Library) (st : Session) (d : Catalogued) (temperature : ℝ) :
    Option Session := do
  let result ← (st.cache d).orElse fun _ => l.fitted d
  return ⟨fun d' => if d' = d then some result else st.cache d',
    st.objects ++ [Library.setTemperature result temperature]⟩

/-- A sequence of calls. -/
noncomputable def Library.calls (l : Library) : Session → List (Catalogued × ℝ) → Option Session
  | st, [] => some st
  | st, c :: cs => do l.calls (← l.call st c.1 c.2) cs

/-- `width_charge_diffusion`, `_materials.py` lines 1771–1789. -/
noncomputable def CatalogueSensor.widthChargeDiffusion (l : Library) (s : CatalogueSensor)
    (wavelength : ℝ) : Option ℝ := do
  chargeDiffusion (← l.absorption wavelength) s.material.thicknessSubstrate s.depletion.thickness

end Optika
