import Verif.Model.MlpMap
import Verif.Model.Cx
import Mathlib.Analysis.Real.Sqrt
import Mathlib.Analysis.Real.Pi.Bounds

/-!
# Spherical harmonics

`/repo/src/pypolymlp/cxx/src/polymlp/polymlp_spherical_harmonics.{h,cpp}` and `get_ylm_` of
`polymlp_functions_interface.cpp` 89-140, over the real numbers.  Arrays are functions on `ℕ`; a
`resize`d vector starts with zeros.  The decimal constants stand for the numbers named in the code:
`sqrt(0.5 / pi)`, `sqrt(3)`, `sqrt(3/2)`, `sqrt(2)`.  For `lmax = 0` the code reads `q[1]` of a vector of
length one in `compute_ylm_der` (line 84); the model reads zero there.
-/

namespace Verif.Mlp
open Real

/-- `lm2i` (`polymlp_spherical_harmonics.h` 29-31). -/
def lm2i (l m : ℕ) : ℕ := l * (l + 1) / 2 + m

/-- `lm2i_negm(l, -m)` (`polymlp_spherical_harmonics.h` 32-34). -/
def lm2iNeg (l m : ℕ) : ℕ := l * (l + 1) / 2 + l - m

/-- `sqrt_inv_2pi`. -/
noncomputable def sqrtInv2Pi : ℝ := √(0.5 / π)

/-- Body of the first loop of `normalized_associated_legendre`
(`polymlp_spherical_harmonics.cpp` 143-149); the loop for `q` (195-203) is the same. -/
noncomputable def legDiag (costheta sintheta : ℝ) (p : ℕ → ℝ) (l : ℕ) : ℕ → ℝ :=
  let coeff1 := -√(1.0 + 0.5 / l) * sintheta
  let p1 := put p (lm2i l l) (coeff1 * p (lm2i (l - 1) (l - 1)))
  let coeff2 := √(2.0 * ((l : ℝ) - 1.0) + 3.0) * costheta
  put p1 (lm2i l (l - 1)) (coeff2 * p1 (lm2i (l - 1) (l - 1)))

/-- Body of the inner loop (`polymlp_spherical_harmonics.cpp` 154-160 and 208-216). -/
noncomputable def legInner (costheta : ℝ) (l : ℕ) (p : ℕ → ℝ) (m : ℕ) : ℕ → ℝ :=
  let ls : ℝ := (l : ℝ) * l
  let lm1s : ℝ := ((l : ℝ) - 1) * ((l : ℝ) - 1)
  let ms : ℝ := (m : ℝ) * m
  let alm := √((4.0 * ls - 1.0) / (ls - ms))
  let blm := -√((lm1s - ms) / (4.0 * lm1s - 1.0))
  put p (lm2i l m) (alm * (costheta * p (lm2i (l - 1) m) + blm * p (lm2i (l - 2) m)))

/-- The two loops, for `l = 2..lmax` and `m = 0..l-2`. -/
noncomputable def legLoops (lmax : ℕ) (costheta sintheta : ℝ) (p : ℕ → ℝ) : ℕ → ℝ :=
  let p1 := (List.range' 2 (lmax - 1)).foldl (legDiag costheta sintheta) p
  (List.range' 2 (lmax - 1)).foldl
    (fun p l => (List.range (l - 1)).foldl (legInner costheta l) p) p1

/-- `normalized_associated_legendre(costheta, p)` (`polymlp_spherical_harmonics.cpp` 124-163). -/
noncomputable def legP (lmax : ℕ) (costheta : ℝ) : ℕ → ℝ :=
  let p0 := put (fun _ => 0) (lm2i 0 0) sqrtInv2Pi
  if lmax = 0 then p0
  else
    let p1 := put p0 (lm2i 1 0) (costheta * √3 * sqrtInv2Pi)
    let sintheta := √(1.0 - costheta * costheta)
    let p2 := put p1 (lm2i 1 1) (-sintheta * √(3 / 2) * sqrtInv2Pi)
    legLoops lmax costheta sintheta p2

/-- `q` of `normalized_associated_legendre(costheta, p, q)`
(`polymlp_spherical_harmonics.cpp` 166-218); `p` is as without `q`. -/
noncomputable def legQ (lmax : ℕ) (costheta : ℝ) : ℕ → ℝ :=
  let q0 := put (fun _ => 0) (lm2i 0 0) 0.0
  if lmax = 0 then q0
  else
    let q1 := put q0 (lm2i 1 0) 0.0
    let sintheta := √(1.0 - costheta * costheta)
    let q2 := put q1 (lm2i 1 1) (-√(3 / 2) * sqrtInv2Pi)
    legLoops lmax costheta sintheta q2

/-- `c1, c2, s1, s2, sign` of the loop over `mp`. -/
structure Azim where
  c1 : ℝ
  c2 : ℝ
  s1 : ℝ
  s2 : ℝ
  sign : ℝ

/-- The values before the loop (`polymlp_spherical_harmonics.cpp` 42-45, 91-94). -/
def Azim.start (cosphi sinphi : ℝ) : Azim := ⟨1.0, cosphi, 0.0, -sinphi, -1⟩

/-- The first lines of the loop body (`polymlp_spherical_harmonics.cpp` 47-49, 96-98). -/
def Azim.step (tc : ℝ) (a : Azim) : Azim :=
  ⟨tc * a.c1 - a.c2, a.c1, tc * a.s1 - a.s2, a.s1, a.sign⟩

/-- `sign *= -1` at the end of the loop body. -/
def Azim.flip (a : Azim) : Azim := { a with sign := a.sign * -1 }

/-- `compute_ylm` (`polymlp_spherical_harmonics.cpp` 27-58). -/
noncomputable def computeYlm (lmax : ℕ) (costheta cosphi sinphi : ℝ) : ℕ → Cx ℝ :=
  let p := legP lmax costheta
  let y0 := (List.range (lmax + 1)).foldl
    (fun y l => put y (lm2iNeg l 0) ⟨p (lm2i l 0) * 0.5 * √2, 0⟩) (fun _ => 0)
  let tc := 2.0 * cosphi
  ((List.range' 1 lmax).foldl
    (fun (s : Azim × (ℕ → Cx ℝ)) mp =>
      let a := s.1.step tc
      let y := (List.range' mp (lmax + 1 - mp)).foldl
        (fun y l =>
          let tmp := a.sign * p (lm2i l mp) * 0.5 * √2
          put y (lm2iNeg l mp) (Cx.smul tmp ⟨a.c1, -a.s1⟩)) s.2
      (a.flip, y))
    (Azim.start cosphi sinphi, y0)).2

/-- `ylm` and its three derivatives. -/
structure Ylm where
  y : ℕ → Cx ℝ
  dx : ℕ → Cx ℝ
  dy : ℕ → Cx ℝ
  dz : ℕ → Cx ℝ

/-- The body of the loop over `l` for `m = 0` (`polymlp_spherical_harmonics.cpp` 81-89). -/
noncomputable def ylmZero (p q : ℕ → ℝ) (costheta sintheta cosphi sinphi invr : ℝ) (o : Ylm) (l : ℕ) :
    Ylm :=
  let idx := lm2iNeg l 0
  let common := q (lm2i l 1) * sintheta * invr * √(0.5 * l * (l + 1))
  ⟨put o.y idx ⟨p (lm2i l 0) * 0.5 * √2, 0⟩,
    put o.dx idx ⟨common * costheta * cosphi, 0⟩,
    put o.dy idx ⟨common * costheta * sinphi, 0⟩,
    put o.dz idx ⟨-common * sintheta, 0⟩⟩

/-- The body of the loop over `l` for `m = -mp` (`polymlp_spherical_harmonics.cpp` 99-119). -/
noncomputable def ylmNeg (p q : ℕ → ℝ) (costheta sintheta cosphi sinphi invr : ℝ) (a : Azim) (mp : ℕ)
    (o : Ylm) (l : ℕ) : Ylm :=
  let idx := lm2iNeg l mp
  let tmp := a.sign * p (lm2i l mp) * 0.5 * √2
  let eimphi : Cx ℝ := ⟨a.c1, a.s1⟩
  let common := Cx.smul invr (Cx.smul √2 (Cx.smul 0.5 eimphi))
  let dtheta0 := (mp : ℝ) * costheta * q (lm2i l mp)
  let dtheta := if mp ≠ l then dtheta0 + √(((l : ℝ) - mp) * (l + mp + 1)) * q (lm2i l (mp + 1)) * sintheta
    else dtheta0
  let dphi : Cx ℝ := ⟨0.0, (mp : ℝ) * q (lm2i l mp)⟩
  ⟨put o.y idx (Cx.smul tmp ⟨a.c1, -a.s1⟩),
    put o.dx idx (Cx.smul a.sign (Cx.conj (common *
      ((⟨dtheta * costheta * cosphi, 0⟩ : Cx ℝ) - Cx.smul sinphi dphi)))),
    put o.dy idx (Cx.smul a.sign (Cx.conj (common *
      ((⟨dtheta * costheta * sinphi, 0⟩ : Cx ℝ) + Cx.smul cosphi dphi)))),
    put o.dz idx (Cx.smul a.sign (Cx.conj (Cx.smul sintheta (Cx.smul dtheta (-common)))))⟩

/-- `compute_ylm_der` (`polymlp_spherical_harmonics.cpp` 60-121). -/
noncomputable def computeYlmDer (lmax : ℕ) (costheta cosphi sinphi r : ℝ) : Ylm :=
  let p := legP lmax costheta
  let q := legQ lmax costheta
  let sintheta := √(1.0 - costheta * costheta)
  let invr := 1.0 / r
  let o := (List.range (lmax + 1)).foldl (ylmZero p q costheta sintheta cosphi sinphi invr)
    ⟨fun _ => 0, fun _ => 0, fun _ => 0, fun _ => 0⟩
  let tc := 2.0 * cosphi
  ((List.range' 1 lmax).foldl
    (fun (s : Azim × Ylm) mp =>
      let a := s.1.step tc
      (a.flip, (List.range' mp (lmax + 1 - mp)).foldl
        (ylmNeg p q costheta sintheta cosphi sinphi invr a mp) s.2))
    (Azim.start cosphi sinphi, o)).2

/-- `cos_azimuthal` and `sin_azimuthal` (`polymlp_functions_interface.cpp` 99-108, 128-137). -/
noncomputable def azimuthal (x y : ℝ) : ℝ × ℝ :=
  let rho := √(x * x + y * y)
  if rho > 0.0 then (x / rho, y / rho) else (1.0, 0.0)

/-- `get_ylm_` without derivatives (`polymlp_functions_interface.cpp` 89-111). -/
noncomputable def getYlm (lmax : ℕ) (x y z : ℝ) : ℕ → Cx ℝ :=
  let r := √(x * x + y * y + z * z)
  let a := azimuthal x y
  computeYlm lmax (z / r) a.1 a.2

/-- `get_ylm_` with derivatives (`polymlp_functions_interface.cpp` 114-143). -/
noncomputable def getYlmDer (lmax : ℕ) (r x y z : ℝ) : Ylm :=
  let a := azimuthal x y
  computeYlmDer lmax (z / r) a.1 a.2 r

end Verif.Mlp
