import Verif.Model.Silicon
import Verif.Model.Sensor

/-!
# Materials of imaging sensors

`optika/sensors/materials/_materials.py` and the detector part of `optika/sensors/_sensors.py`.
Refractive indices are functions of the wavelength, the quantum yield and the Fano factor functions
of wavelength and temperature.  Results that are not a number are `none`.
-/

namespace Optika
open Complex

/-! ### Free functions -/

/-- The oxide layer and the substrate, `_materials.py` lines 178–193. -/
noncomputable def roughLayer (n : ℝ → ℂ) (thickness roughness : ℝ) : Layer :=
  ⟨n, thickness, some (profileReflectivity (erfFourier roughness))⟩

/-- `transmittance`, `_materials.py` lines 96–197, of one polarization. -/
noncomputable def sensorTransmittance (wavelength : ℝ) (polarizedS : Bool) (direction n : ℂ)
    (nOxide nSubstrate : ℝ → ℂ) (thicknessOxide thicknessSubstrate roughnessOxide
    roughnessSubstrate : ℝ) : Option ℝ :=
  (multilayerEfficiency wavelength polarizedS direction n
    (.sequence [.layer (roughLayer nOxide thicknessOxide roughnessOxide)])
    (some (roughLayer nSubstrate thicknessSubstrate roughnessSubstrate))).map (·.2)

/-- `absorbance` with `method="Beer-Lambert"`, `_materials.py` lines 336–374, of one
polarization. -/
noncomputable def sensorAbsorbance (wavelength : ℝ) (polarizedS : Bool) (direction n : ℂ)
    (nOxide nSubstrate : ℝ → ℂ) (thicknessOxide thicknessSubstrate roughnessOxide
    roughnessSubstrate : ℝ) : Option ℝ := do
  let transmittance ← sensorTransmittance wavelength polarizedS direction n nOxide nSubstrate
    thicknessOxide thicknessSubstrate roughnessOxide roughnessSubstrate
  let directionSubstrate := snellsLawScalar direction n (nSubstrate wavelength)
  let absorption ← absorptionEffective wavelength (nSubstrate wavelength) directionSubstrate
  let transmittanceTotal := transmittance * Real.exp (-absorption * thicknessSubstrate)
  return transmittance - transmittanceTotal

/-- `absorbance` with `method="exact"`, `_materials.py` lines 312–334, of one polarization. -/
noncomputable def sensorAbsorbanceExact (wavelength : ℝ) (polarizedS : Bool) (direction n : ℂ)
    (nOxide nSubstrate : ℝ → ℂ) (thicknessOxide thicknessSubstrate roughnessOxide
    roughnessSubstrate : ℝ) : Option ℝ :=
  (layerAbsorbance 1 wavelength polarizedS direction n
    (.sequence [.layer (roughLayer nOxide thicknessOxide roughnessOxide),
      .layer (roughLayer nSubstrate thicknessSubstrate roughnessSubstrate)]) none).map (·.re)

/-- `absorbance(...).average`. -/
noncomputable def sensorAbsorbanceAverage (wavelength : ℝ) (direction n : ℂ)
    (nOxide nSubstrate : ℝ → ℂ) (thicknessOxide thicknessSubstrate roughnessOxide
    roughnessSubstrate : ℝ) : Option ℝ := do
  let s ← sensorAbsorbance wavelength true direction n nOxide nSubstrate thicknessOxide
    thicknessSubstrate roughnessOxide roughnessSubstrate
  let p ← sensorAbsorbance wavelength false direction n nOxide nSubstrate thicknessOxide
    thicknessSubstrate roughnessOxide roughnessSubstrate
  return (s + p) / 2

/-- `quantum_efficiency_effective`, `_materials.py` lines 500–687. -/
noncomputable def quantumEfficiencyEffective (wavelength : ℝ) (direction n : ℂ)
    (nOxide nSubstrate : ℝ → ℂ) (thicknessOxide thicknessImplant thicknessSubstrate cceBacksurface
    roughnessOxide roughnessSubstrate : ℝ) : Option ℝ := do
  let absorbance ← sensorAbsorbanceAverage wavelength direction n nOxide nSubstrate thicknessOxide
    thicknessSubstrate roughnessOxide roughnessSubstrate
  let directionSubstrate := snellsLawScalar direction n (nSubstrate wavelength)
  let absorption ← absorptionEffective wavelength (nSubstrate wavelength) directionSubstrate
  let cce ← chargeCollectionEfficiency absorption thicknessImplant cceBacksurface
  return absorbance * cce

/-- `signal` with `method="expected"`, `_materials.py` lines 1171–1203; `iqy` is
`quantum_yield_ideal`. -/
noncomputable def signalExpected (iqy : ℝ → ℝ → ℝ) (photonsExpected wavelength : ℝ)
    (direction n nSubstrate : ℂ) (absorbance thicknessImplant cceBacksurface temperature : ℝ) :
    Option ℝ := do
  let directionSubstrate := snellsLawScalar direction n nSubstrate
  let absorption ← absorptionEffective wavelength nSubstrate directionSubstrate
  let cce ← chargeCollectionEfficiency absorption thicknessImplant cceBacksurface
  return iqy wavelength temperature * absorbance * cce * photonsExpected

/-- `vmr_signal`, `_materials.py` lines 1235–1407; `iqy` is `quantum_yield_ideal`, `fano` is
`fano_factor`, which is called without the temperature and so takes its default, 300 K. -/
noncomputable def vmrSignal (iqy fano : ℝ → ℝ → ℝ) (wavelength : ℝ) (direction n nSubstrate : ℂ)
    (thicknessImplant cceBacksurface temperature : ℝ) (shot fanoNoise pcc : Bool) : Option ℝ := do
  let directionSubstrate := snellsLawScalar direction n nSubstrate
  let absorption ← absorptionEffective wavelength nSubstrate directionSubstrate
  let q := iqy wavelength temperature
  let cce ← chargeCollectionEfficiency absorption thicknessImplant cceBacksurface
  let F := fano wavelength 300
  let n0 := cceBacksurface
  let aW := absorption * thicknessImplant
  let fPcc ← if pcc then (div? (n0 - 1) aW).bind fun r =>
      (div? (2 * Real.exp (-aW) * r ^ 2 * (Real.sinh aW - aW)) cce).map fun fCce =>
        1 - cce - fCce + q * fCce + F * fCce
    else some 0
  return 0 + (if shot then q * cce else 0) + (if fanoNoise then cce * F else 0) + fPcc

/-! ### Materials -/

/-- The number of photons, if the image has units of photons or of energy: `_materials.py` lines
1589–1592 and 2107–2110. `hc` is Planck's constant times the speed of light. -/
noncomputable def toPhotons (hc : ℝ) (inPhotons : Bool) (photons wavelength : ℝ) : Option ℝ :=
  if inPhotons then some photons else do
    let energy ← div? hc wavelength
    div? photons energy

/-- `IdealSensorMaterial.signal` without noise, `_materials.py` lines 1576–1601. -/
noncomputable def idealSignal (hc : ℝ) (inPhotons : Bool) (photons wavelength : ℝ) : Option ℝ :=
  toPhotons hc inPhotons photons wavelength

/-- `IdealSensorMaterial.direction_refracted`, `_materials.py` lines 1603–1616. -/
def idealDirectionRefracted (direction normal : V3) : ℝ := -(direction.dot normal)

/-- `IdealSensorMaterial.photons_absorbed` (and `photons_incident`), `_materials.py` lines
1618–1633. -/
def idealPhotonsAbsorbed (electrons : ℝ) : ℝ := electrons

/-- `IdealSensorMaterial.uncertainty`, `_materials.py` lines 1635–1643. -/
noncomputable def idealUncertainty (electrons : ℝ) : Option ℝ := sqrt? electrons

/-- `AbstractBackIlluminatedSiliconSensorMaterial`: its parameters, and what is known of silicon
and its oxide. -/
structure SiliconMaterial where
  /-- refractive index of silicon -/
  nSilicon : ℝ → ℂ
  /-- refractive index of the oxide -/
  nOxide : ℝ → ℂ
  /-- `quantum_yield_ideal` as function of wavelength and temperature -/
  iqy : ℝ → ℝ → ℝ
  /-- `fano_factor` as function of wavelength and temperature -/
  fano : ℝ → ℝ → ℝ
  thicknessOxide : ℝ
  thicknessImplant : ℝ
  thicknessSubstrate : ℝ
  roughnessOxide : ℝ
  roughnessSubstrate : ℝ
  cceBacksurface : ℝ
  temperature : ℝ

namespace SiliconMaterial
variable (m : SiliconMaterial)

/-- `direction_refracted`, `_materials.py` lines 2030–2047. -/
noncomputable def directionRefracted (wavelength : ℝ) (direction : V3) (n : ℂ) (normal : V3) : ℂ :=
  snellsLawScalar ((-(direction.dot normal) : ℝ) : ℂ) n (m.nSilicon wavelength)

/-- `signal` with `noise=False`, `_materials.py` lines 2093–2139. -/
noncomputable def signal (hc : ℝ) (inPhotons : Bool) (photons wavelength : ℝ) (direction : ℂ) :
    Option ℝ := do
  let photons ← toPhotons hc inPhotons photons wavelength
  let nSubstrate := m.nSilicon wavelength
  signalExpected m.iqy photons wavelength direction nSubstrate nSubstrate 1 m.thicknessImplant
    m.cceBacksurface m.temperature

/-- `photons_absorbed`, `_materials.py` lines 2176–2205. -/
noncomputable def photonsAbsorbed (electrons wavelength : ℝ) (direction : ℂ) : Option ℝ := do
  let nSubstrate := m.nSilicon wavelength
  let absorption ← absorptionEffective wavelength nSubstrate direction
  let cce ← chargeCollectionEfficiency absorption m.thicknessImplant m.cceBacksurface
  div? electrons (m.iqy wavelength m.temperature * cce)

/-- `uncertainty`, `_materials.py` lines 2207–2229. -/
noncomputable def uncertainty (electrons wavelength : ℝ) (direction : ℂ) : Option ℝ := do
  let nSubstrate := m.nSilicon wavelength
  let vmr ← vmrSignal m.iqy m.fano wavelength direction nSubstrate nSubstrate m.thicknessImplant
    m.cceBacksurface m.temperature true true true
  sqrt? (vmr * electrons)

/-- `absorbance(...).average`, `_materials.py` lines 1832–1871, also `efficiency`, lines
2231–2243. -/
noncomputable def absorbanceAverage (wavelength : ℝ) (direction : V3) (n : ℂ) (normal : V3) :
    Option ℝ :=
  sensorAbsorbanceAverage wavelength ((-(direction.dot normal) : ℝ) : ℂ) n m.nOxide m.nSilicon
    m.thicknessOxide m.thicknessSubstrate m.roughnessOxide m.roughnessSubstrate

/-- `charge_collection_efficiency`, `_materials.py` lines 1873–1921. -/
noncomputable def cce (wavelength : ℝ) (direction : V3) (n : ℂ) (normal : V3) : Option ℝ := do
  let direction := ((-(direction.dot normal) : ℝ) : ℂ)
  let nSubstrate := m.nSilicon wavelength
  let directionSubstrate := snellsLawScalar direction n nSubstrate
  let absorption ← absorptionEffective wavelength nSubstrate directionSubstrate
  chargeCollectionEfficiency absorption m.thicknessImplant m.cceBacksurface

/-- `quantum_efficiency_effective`, `_materials.py` lines 1923–1966. -/
noncomputable def eqe (wavelength : ℝ) (direction : V3) (n : ℂ) (normal : V3) : Option ℝ :=
  quantumEfficiencyEffective wavelength ((-(direction.dot normal) : ℝ) : ℂ) n m.nOxide m.nSilicon
    m.thicknessOxide m.thicknessImplant m.thicknessSubstrate m.cceBacksurface m.roughnessOxide
    m.roughnessSubstrate

/-- `quantum_efficiency`, `_materials.py` lines 1968–1999. -/
noncomputable def quantumEfficiency (wavelength : ℝ) (direction : V3) (n : ℂ) (normal : V3) :
    Option ℝ := do
  let eqe ← m.eqe wavelength direction n normal
  return m.iqy wavelength m.temperature * eqe

/-- `probability_measurement`, `_materials.py` lines 2001–2028: the ambient medium is vacuum. -/
noncomputable def probability (wavelength : ℝ) (direction : V3) (normal : V3) : Option ℝ := do
  let cce ← m.cce wavelength direction 1 normal
  return probabilityMeasurement (m.iqy wavelength m.temperature) cce

/-- `photons_incident`, `_materials.py` lines 2141–2174. -/
noncomputable def photonsIncident (electrons wavelength : ℝ) (direction : V3) (n : ℂ)
    (normal : V3) : Option ℝ := do
  let qe ← m.quantumEfficiency wavelength direction n normal
  div? electrons qe

/-- `efficiency`, `_materials.py` lines 2231–2243. -/
noncomputable def efficiency (r : Ray) (normal : V3) : Option ℝ :=
  m.absorbanceAverage r.wavelength r.direction (rayIndex r) normal

end SiliconMaterial

/-! ### Sensors -/

/-- `cell_centers` of the edges of a bin. -/
noncomputable def cellCenter (edges : ℝ × ℝ) : ℝ := (edges.1 + edges.2) / 2

/-- `AbstractImagingSensor.expose` with `noise=False`, `_sensors.py` lines 230–252, of one pixel
and one bin of wavelengths. -/
noncomputable def exposeSilicon (hc : ℝ) (inPhotons : Bool) (m : SiliconMaterial) (timedelta : ℝ)
    (image : ℝ) (edges : ℝ × ℝ) (direction : ℂ) : Option ℝ :=
  let photons := image * timedelta
  m.signal hc inPhotons photons (cellCenter edges) direction

/-- `AbstractImagingSensor.photons_absorbed`, `_sensors.py` lines 296–315. -/
noncomputable def sensorPhotonsAbsorbed (m : SiliconMaterial) (timedelta : ℝ) (image : ℝ)
    (edges : ℝ × ℝ) (direction : ℂ) : Option ℝ := do
  let photons ← m.photonsAbsorbed image (cellCenter edges) direction
  div? photons timedelta

/-- `AbstractImagingSensor.uncertainty`, `_sensors.py` lines 353–372. -/
noncomputable def sensorUncertainty (m : SiliconMaterial) (readNoise : ℝ) (image : ℝ)
    (edges : ℝ × ℝ) (direction : ℂ) : Option ℝ := do
  let u ← m.uncertainty image (cellCenter edges) direction
  sqrt? (u ^ 2 + readNoise ^ 2)

/-- `AbstractImagingSensor.expose` with the ideal material and `noise=False`. -/
noncomputable def exposeIdeal (hc : ℝ) (inPhotons : Bool) (timedelta : ℝ) (image : ℝ)
    (edges : ℝ × ℝ) : Option ℝ :=
  idealSignal hc inPhotons (image * timedelta) (cellCenter edges)

/-- `AbstractImagingSensor.photons_absorbed` with the ideal material. -/
noncomputable def idealSensorPhotonsAbsorbed (timedelta image : ℝ) : Option ℝ :=
  div? (idealPhotonsAbsorbed image) timedelta

/-- `AbstractImagingSensor.uncertainty` with the ideal material. -/
noncomputable def idealSensorUncertainty (readNoise image : ℝ) : Option ℝ := do
  let u ← idealUncertainty image
  sqrt? (u ^ 2 + readNoise ^ 2)

end Optika
