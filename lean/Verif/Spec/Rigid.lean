import Verif.Spec.Vec

/-!
# Rigid motions

The coordinate transformations of named_arrays used by optika (translations, rotations and
compositions of them, see `optika/mixins.py`) act as `x ↦ R x + t` with an orthogonal matrix.
-/

namespace Optika
open V3

/-- A 3×3 matrix given by its rows. -/
@[ext]
structure M3 where
  r1 : V3
  r2 : V3
  r3 : V3

namespace M3

/-- Matrix times vector. -/
def mulVec (m : M3) (v : V3) : V3 := ⟨m.r1.dot v, m.r2.dot v, m.r3.dot v⟩

/-- Transpose. -/
def transpose (m : M3) : M3 :=
  ⟨⟨m.r1.x, m.r2.x, m.r3.x⟩, ⟨m.r1.y, m.r2.y, m.r3.y⟩, ⟨m.r1.z, m.r2.z, m.r3.z⟩⟩

/-- Matrix product. -/
def mul (a b : M3) : M3 :=
  let c := b.transpose
  ⟨⟨a.r1.dot c.r1, a.r1.dot c.r2, a.r1.dot c.r3⟩,
   ⟨a.r2.dot c.r1, a.r2.dot c.r2, a.r2.dot c.r3⟩,
   ⟨a.r3.dot c.r1, a.r3.dot c.r2, a.r3.dot c.r3⟩⟩

/-- The identity matrix. -/
def one : M3 := ⟨⟨1, 0, 0⟩, ⟨0, 1, 0⟩, ⟨0, 0, 1⟩⟩

theorem mulVec_mul (a b : M3) (v : V3) : (a.mul b).mulVec v = a.mulVec (b.mulVec v) := by
  apply V3.ext <;> simp only [mulVec, mul, transpose, dot] <;> ring

theorem mulVec_one (v : V3) : one.mulVec v = v := by
  apply V3.ext <;> simp [mulVec, one, dot]

theorem mulVec_add (m : M3) (v w : V3) : m.mulVec (v + w) = m.mulVec v + m.mulVec w := by
  apply V3.ext <;> simp only [mulVec, dot, add_x, add_y, add_z] <;> ring

theorem mulVec_sub (m : M3) (v w : V3) : m.mulVec (v - w) = m.mulVec v - m.mulVec w := by
  apply V3.ext <;> simp only [mulVec, dot, sub_x, sub_y, sub_z] <;> ring

theorem mulVec_smul (m : M3) (k : ℝ) (v : V3) : m.mulVec (k • v) = k • m.mulVec v := by
  apply V3.ext <;> simp only [mulVec, dot, smul_x, smul_y, smul_z] <;> ring

theorem dot_mulVec (m : M3) (v w : V3) : v.dot (m.mulVec w) = (m.transpose.mulVec v).dot w := by
  simp only [mulVec, transpose, dot]; ring

end M3

/-- A rigid motion `x ↦ R x + t`. -/
structure Rigid where
  rot : M3
  shift : V3
  left_inv : ∀ v, rot.transpose.mulVec (rot.mulVec v) = v
  right_inv : ∀ v, rot.mulVec (rot.transpose.mulVec v) = v

namespace Rigid

/-- Action on a position. -/
def point (g : Rigid) (v : V3) : V3 := g.rot.mulVec v + g.shift

/-- Action on a direction. -/
def vec (g : Rigid) (v : V3) : V3 := g.rot.mulVec v

/-- Inverse action on a position. -/
def ipoint (g : Rigid) (v : V3) : V3 := g.rot.transpose.mulVec (v - g.shift)

/-- Inverse action on a direction. -/
def ivec (g : Rigid) (v : V3) : V3 := g.rot.transpose.mulVec v

@[simp] theorem ipoint_point (g : Rigid) (v : V3) : g.ipoint (g.point v) = v := by
  unfold ipoint point
  have : g.rot.mulVec v + g.shift - g.shift = g.rot.mulVec v := by vring
  rw [this, g.left_inv]

@[simp] theorem point_ipoint (g : Rigid) (v : V3) : g.point (g.ipoint v) = v := by
  unfold ipoint point
  rw [g.right_inv]; vring

@[simp] theorem ivec_vec (g : Rigid) (v : V3) : g.ivec (g.vec v) = v := g.left_inv v
@[simp] theorem vec_ivec (g : Rigid) (v : V3) : g.vec (g.ivec v) = v := g.right_inv v

/-- Composition `g ∘ h`. -/
def comp (g h : Rigid) : Rigid where
  rot := g.rot.mul h.rot
  shift := g.rot.mulVec h.shift + g.shift
  left_inv v := by
    have : (g.rot.mul h.rot).transpose = h.rot.transpose.mul g.rot.transpose := by
      apply M3.ext <;> apply V3.ext <;> simp only [M3.mul, M3.transpose, dot] <;> ring
    rw [this, M3.mulVec_mul, M3.mulVec_mul, g.left_inv, h.left_inv]
  right_inv v := by
    have : (g.rot.mul h.rot).transpose = h.rot.transpose.mul g.rot.transpose := by
      apply M3.ext <;> apply V3.ext <;> simp only [M3.mul, M3.transpose, dot] <;> ring
    rw [this, M3.mulVec_mul, M3.mulVec_mul, h.right_inv, g.right_inv]

/-- The identity. -/
def id : Rigid where
  rot := M3.one
  shift := 0
  left_inv v := by apply V3.ext <;> simp [M3.one, M3.mulVec, M3.transpose, dot]
  right_inv v := by apply V3.ext <;> simp [M3.one, M3.mulVec, M3.transpose, dot]

/-- A pure translation. -/
def translation (t : V3) : Rigid := { id with shift := t }

/-- The inverse motion. -/
def inv (g : Rigid) : Rigid where
  rot := g.rot.transpose
  shift := -(g.rot.transpose.mulVec g.shift)
  left_inv v := g.right_inv v
  right_inv v := g.left_inv v

theorem comp_point (g h : Rigid) (v : V3) : (g.comp h).point v = g.point (h.point v) := by
  simp only [comp, point, M3.mulVec_mul, M3.mulVec_add]; vring

theorem comp_vec (g h : Rigid) (v : V3) : (g.comp h).vec v = g.vec (h.vec v) := by
  simp only [comp, vec, M3.mulVec_mul]

theorem comp_ipoint (g h : Rigid) (v : V3) : (g.comp h).ipoint v = h.ipoint (g.ipoint v) := by
  have : v = (g.comp h).point (h.ipoint (g.ipoint v)) := by rw [comp_point]; simp
  conv_lhs => rw [this]
  simp

theorem comp_ivec (g h : Rigid) (v : V3) : (g.comp h).ivec v = h.ivec (g.ivec v) := by
  have : v = (g.comp h).vec (h.ivec (g.ivec v)) := by rw [comp_vec]; simp
  conv_lhs => rw [this]
  simp

theorem vec_dot_vec (g : Rigid) (v w : V3) : (g.vec v).dot (g.vec w) = v.dot w := by
  unfold vec
  rw [M3.dot_mulVec, g.left_inv]

theorem ivec_dot_ivec (g : Rigid) (v w : V3) : (g.ivec v).dot (g.ivec w) = v.dot w := by
  conv_rhs => rw [← vec_ivec g v, ← vec_ivec g w, vec_dot_vec]

theorem vec_len (g : Rigid) (v : V3) : (g.vec v).len = v.len := by
  unfold V3.len; rw [vec_dot_vec]

theorem ivec_len (g : Rigid) (v : V3) : (g.ivec v).len = v.len := by
  unfold V3.len; rw [ivec_dot_ivec]

theorem point_add_smul (g : Rigid) (p d : V3) (t : ℝ) :
    g.point (p + t • d) = g.point p + t • g.vec d := by
  simp only [point, vec, M3.mulVec_add, M3.mulVec_smul]; vring

theorem ipoint_add_smul (g : Rigid) (p d : V3) (t : ℝ) :
    g.ipoint (p + t • d) = g.ipoint p + t • g.ivec d := by
  have : p + t • d - g.shift = (p - g.shift) + t • d := by vring
  simp only [ipoint, ivec, this, M3.mulVec_add, M3.mulVec_smul]

theorem point_sub_point (g : Rigid) (p q : V3) : g.point p - g.point q = g.vec (p - q) := by
  simp only [point, vec, M3.mulVec_sub]; vring

end Rigid
end Optika
