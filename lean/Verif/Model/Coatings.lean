import Verif.Model.Layers
import Verif.Model.Interp
import Verif.Model.SensorMaterial

/-!
# Coated materials

`optika/materials/_multilayers.py`, `_thin_films.py` and `_materials.py`, `optika/sensors/materials/_materials.py`: coatings
and sensors as the material of a surface.
-/

namespace Optika

/-- `MultilayerMirror`, `optika/materials/_multilayers.py` lines 791–805 and 902–968: index and attenuation are those of
the incident rays. -/
noncomputable def multilayerMirror (layers : Stack) (substrate : Option Layer) : Material where
  index r := some r.index
  attenuation r := some r.attenuation
  efficiency := multilayerMirrorEfficiency layers substrate
  isMirror := true

/-- `MultilayerFilm`, `optika/materials/_multilayers.py` lines 791–805 and 830–898. -/
noncomputable def multilayerFilm (layers : Stack) : Material where
  index r := some r.index
  attenuation r := some r.attenuation
  efficiency := multilayerFilmEfficiency layers
  isMirror := false

/-- `ThinFilmFilter`, `optika/materials/_thin_films.py` lines 14–56. -/
noncomputable def thinFilmFilter (layer oxide : Stack) (meshEfficiency : ℝ) : Material where
  index r := some r.index
  attenuation r := some r.attenuation
  efficiency := thinFilmEfficiency layer oxide meshEfficiency
  isMirror := false

/-- `MeasuredMirror`, `optika/materials/_materials.py` lines 120–158 and 177–305. -/
noncomputable def measuredMirror (table : List (ℝ × ℝ)) : Material where
  index r := some r.index
  attenuation r := some r.attenuation
  efficiency r _ := measuredEfficiency table r
  isMirror := true

/-- `BackIlluminatedSiliconSensorMaterial` as the material of the surface of a sensor,
`optika/sensors/materials/_materials.py` lines 1705–1719 and 2231–2243. -/
noncomputable def SiliconMaterial.material (m : SiliconMaterial) : Material where
  index r := some r.index
  attenuation r := some r.attenuation
  efficiency := m.efficiency
  isMirror := false

end Optika
