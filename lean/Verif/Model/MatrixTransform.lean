import Verif.Model.Matrix

/-!
# Model of `vmmlib/matrix.hpp`: 4x4 transforms (1462-1482, 1771-2128)

All cell indices are literals inside the 16 cells of a 4x4 matrix (the functions are enabled only for `M == N == 4`),
so these functions cannot fault and are written without `Res`. The angle argument is already of type `T`
(the source casts it, `static_cast< T >( angle_ )`).
-/

namespace Vmml
namespace Mat
variable {M N : Nat} {α β : Type}

/-- `x()`, 1462-1467. -/
def x (m : Mat 4 4 α) : α := m.array[12]
/-- `y()`, 1471-1476. -/
def y (m : Mat 4 4 α) : α := m.array[13]
/-- `z()`, 1480-1485. -/
def z (m : Mat 4 4 α) : α := m.array[14]

/-- `rotate( angle, axis )`, 1771-1812: sixteen assignments; the previous content is overwritten. -/
def rotate [Zero α] [One α] [Add α] [Sub α] [Mul α] [CMath α] (m : Mat 4 4 α) (angle : α) (axis : Vec 3 α) : Mat 4 4 α :=
  let sine := CMath.sin angle
  let cosine := CMath.cos angle
  let zero : α := 0
  let one : α := 1
  let two : α := 1 + 1
  let a := m.array
  let a := a.set 0 (cosine + (one - cosine) * CMath.pow axis[0] two)
  let a := a.set 1 ((one - cosine) * axis[0] * axis[1] + sine * axis[2])
  let a := a.set 2 ((one - cosine) * axis[0] * axis[2] - sine * axis[1])
  let a := a.set 3 zero
  let a := a.set 4 ((one - cosine) * axis[0] * axis[1] - sine * axis[2])
  let a := a.set 5 (cosine + (one - cosine) * CMath.pow axis[1] two)
  let a := a.set 6 ((one - cosine) * axis[1] * axis[2] + sine * axis[0])
  let a := a.set 7 zero
  let a := a.set 8 ((one - cosine) * axis[0] * axis[2] + sine * axis[1])
  let a := a.set 9 ((one - cosine) * axis[1] * axis[2] - sine * axis[0])
  let a := a.set 10 (cosine + (one - cosine) * CMath.pow axis[2] two)
  let a := a.set 11 zero
  let a := a.set 12 zero
  let a := a.set 13 zero
  let a := a.set 14 zero
  let a := a.set 15 one
  ⟨a⟩

/-- `rotate_x( angle )`, 1814-1843. -/
def rotateX [Add α] [Sub α] [Mul α] [Neg α] [CMath α] (m : Mat 4 4 α) (angle : α) : Mat 4 4 α :=
  let sine := CMath.sin angle
  let cosine := CMath.cos angle
  let a := m.array
  let tmp := a[4] * cosine + a[8] * sine
  let a := a.set 8 (-a[4] * sine + a[8] * cosine)
  let a := a.set 4 tmp
  let tmp := a[5] * cosine + a[9] * sine
  let a := a.set 9 (-a[5] * sine + a[9] * cosine)
  let a := a.set 5 tmp
  let tmp := a[6] * cosine + a[10] * sine
  let a := a.set 10 (-a[6] * sine + a[10] * cosine)
  let a := a.set 6 tmp
  let tmp := a[7] * cosine + a[11] * sine
  let a := a.set 11 (-a[7] * sine + a[11] * cosine)
  let a := a.set 7 tmp
  ⟨a⟩

/-- `rotate_y( angle )`, 1845-1874. -/
def rotateY [Add α] [Sub α] [Mul α] [Neg α] [CMath α] (m : Mat 4 4 α) (angle : α) : Mat 4 4 α :=
  let sine := CMath.sin angle
  let cosine := CMath.cos angle
  let a := m.array
  let tmp := a[0] * cosine - a[8] * sine
  let a := a.set 8 (a[0] * sine + a[8] * cosine)
  let a := a.set 0 tmp
  let tmp := a[1] * cosine - a[9] * sine
  let a := a.set 9 (a[1] * sine + a[9] * cosine)
  let a := a.set 1 tmp
  let tmp := a[2] * cosine - a[10] * sine
  let a := a.set 10 (a[2] * sine + a[10] * cosine)
  let a := a.set 2 tmp
  let tmp := a[3] * cosine - a[11] * sine
  let a := a.set 11 (a[3] * sine + a[11] * cosine)
  let a := a.set 3 tmp
  ⟨a⟩

/-- `rotate_z( angle )`, 1876-1905. -/
def rotateZ [Add α] [Sub α] [Mul α] [Neg α] [CMath α] (m : Mat 4 4 α) (angle : α) : Mat 4 4 α :=
  let sine := CMath.sin angle
  let cosine := CMath.cos angle
  let a := m.array
  let tmp := a[0] * cosine + a[4] * sine
  let a := a.set 4 (-a[0] * sine + a[4] * cosine)
  let a := a.set 0 tmp
  let tmp := a[1] * cosine + a[5] * sine
  let a := a.set 5 (-a[1] * sine + a[5] * cosine)
  let a := a.set 1 tmp
  let tmp := a[2] * cosine + a[6] * sine
  let a := a.set 6 (-a[2] * sine + a[6] * cosine)
  let a := a.set 2 tmp
  let tmp := a[3] * cosine + a[7] * sine
  let a := a.set 7 (-a[3] * sine + a[7] * cosine)
  let a := a.set 3 tmp
  ⟨a⟩

/-- `pre_rotate_x( angle )`, 1907-1936. -/
def preRotateX [Add α] [Sub α] [Mul α] [Neg α] [CMath α] (m : Mat 4 4 α) (angle : α) : Mat 4 4 α :=
  let sine := CMath.sin angle
  let cosine := CMath.cos angle
  let a := m.array
  let tmp := a[1]
  let a := a.set 1 (a[1] * cosine + a[2] * sine)
  let a := a.set 2 (tmp * -sine + a[2] * cosine)
  let tmp := a[5]
  let a := a.set 5 (a[5] * cosine + a[6] * sine)
  let a := a.set 6 (tmp * -sine + a[6] * cosine)
  let tmp := a[9]
  let a := a.set 9 (a[9] * cosine + a[10] * sine)
  let a := a.set 10 (tmp * -sine + a[10] * cosine)
  let tmp := a[13]
  let a := a.set 13 (a[13] * cosine + a[14] * sine)
  let a := a.set 14 (tmp * -sine + a[14] * cosine)
  ⟨a⟩

/-- `pre_rotate_y( angle )`, 1938-1967. -/
def preRotateY [Add α] [Sub α] [Mul α] [Neg α] [CMath α] (m : Mat 4 4 α) (angle : α) : Mat 4 4 α :=
  let sine := CMath.sin angle
  let cosine := CMath.cos angle
  let a := m.array
  let tmp := a[0]
  let a := a.set 0 (a[0] * cosine - a[2] * sine)
  let a := a.set 2 (tmp * sine + a[2] * cosine)
  let tmp := a[4]
  let a := a.set 4 (a[4] * cosine - a[6] * sine)
  let a := a.set 6 (tmp * sine + a[6] * cosine)
  let tmp := a[8]
  let a := a.set 8 (a[8] * cosine - a[10] * sine)
  let a := a.set 10 (tmp * sine + a[10] * cosine)
  let tmp := a[12]
  let a := a.set 12 (a[12] * cosine - a[14] * sine)
  let a := a.set 14 (tmp * sine + a[14] * cosine)
  ⟨a⟩

/-- `pre_rotate_z( angle )`, 1969-1998. -/
def preRotateZ [Add α] [Sub α] [Mul α] [Neg α] [CMath α] (m : Mat 4 4 α) (angle : α) : Mat 4 4 α :=
  let sine := CMath.sin angle
  let cosine := CMath.cos angle
  let a := m.array
  let tmp := a[0]
  let a := a.set 0 (a[0] * cosine + a[1] * sine)
  let a := a.set 1 (tmp * -sine + a[1] * cosine)
  let tmp := a[4]
  let a := a.set 4 (a[4] * cosine + a[5] * sine)
  let a := a.set 5 (tmp * -sine + a[5] * cosine)
  let tmp := a[8]
  let a := a.set 8 (a[8] * cosine + a[9] * sine)
  let a := a.set 9 (tmp * -sine + a[9] * cosine)
  let tmp := a[12]
  let a := a.set 12 (a[12] * cosine + a[13] * sine)
  let a := a.set 13 (tmp * -sine + a[13] * cosine)
  ⟨a⟩

/-- `scale( _scale )`, 2000-2023, and `scale( Vector< 3 > )`, 2048-2055 (which passes the array); the elements are
already cast to `T`. -/
def scale [Mul α] (m : Mat 4 4 α) (s : Vec 3 α) : Mat 4 4 α :=
  let a := m.array
  let a := a.set 0 (a[0] * s[0])
  let a := a.set 1 (a[1] * s[0])
  let a := a.set 2 (a[2] * s[0])
  let a := a.set 3 (a[3] * s[0])
  let a := a.set 4 (a[4] * s[1])
  let a := a.set 5 (a[5] * s[1])
  let a := a.set 6 (a[6] * s[1])
  let a := a.set 7 (a[7] * s[1])
  let a := a.set 8 (a[8] * s[2])
  let a := a.set 9 (a[9] * s[2])
  let a := a.set 10 (a[10] * s[2])
  let a := a.set 11 (a[11] * s[2])
  ⟨a⟩

/-- `scale( x_, y_, z_ )`, 2025-2046. -/
def scaleXYZ [Mul α] (m : Mat 4 4 α) (x_ y_ z_ : α) : Mat 4 4 α :=
  let a := m.array
  let a := a.set 0 (a[0] * x_)
  let a := a.set 1 (a[1] * x_)
  let a := a.set 2 (a[2] * x_)
  let a := a.set 3 (a[3] * x_)
  let a := a.set 4 (a[4] * y_)
  let a := a.set 5 (a[5] * y_)
  let a := a.set 6 (a[6] * y_)
  let a := a.set 7 (a[7] * y_)
  let a := a.set 8 (a[8] * z_)
  let a := a.set 9 (a[9] * z_)
  let a := a.set 10 (a[10] * z_)
  let a := a.set 11 (a[11] * z_)
  ⟨a⟩

/-- `scale_translation( scale_ )`, 2059-2068, and the vector form, 2070-2077. -/
def scaleTranslation [Mul α] (m : Mat 4 4 α) (s : Vec 3 α) : Mat 4 4 α :=
  let a := m.array
  let a := a.set 12 (a[12] * s[0])
  let a := a.set 13 (a[13] * s[1])
  let a := a.set 14 (a[14] * s[2])
  ⟨a⟩

/-- `set_translation( x_, y_, z_ )`, 2079-2089. -/
def setTranslationXYZ (m : Mat 4 4 α) (x_ y_ z_ : α) : Mat 4 4 α :=
  let a := m.array
  let a := a.set 12 x_
  let a := a.set 13 y_
  let a := a.set 14 z_
  ⟨a⟩

/-- `set_translation( trans )`, 2091-2100, and the vector form, 2102-2109. -/
def setTranslation (m : Mat 4 4 α) (t : Vec 3 α) : Mat 4 4 α :=
  let a := m.array
  let a := a.set 12 t[0]
  let a := a.set 13 t[1]
  let a := a.set 14 t[2]
  ⟨a⟩

/-- `get_translation( translation_ )`, 2111-2117: cells `array[ i + M * ( N - 1 ) ]` for `i < N - 1`
(with `M`, `N` arbitrary; here `N = K + 1`). -/
def getTranslationTo {K : Nat} (m : Mat M (K + 1) α) (t : Vec K α) : Res (Vec K α) :=
  loop K (fun i t => do t.rawSet i (← m.rawGet (i + M * K))) t

/-- `get_translation()`, 2120-2126: into a zero-initialised `Vector< N-1, T >`. -/
def getTranslation [Zero α] {K : Nat} (m : Mat M (K + 1) α) : Res (Vec K α) :=
  m.getTranslationTo Vec.zeroCtor

end Mat
end Vmml
