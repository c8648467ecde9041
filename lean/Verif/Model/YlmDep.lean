import Verif.Model.MlpYlm

/-!
# The older spherical harmonics

`/repo/src/pypolymlp/cxx/src/polymlp/polymlp_mlipkk_spherical_harmonics.{h,cpp}` and `get_ylm_polar` of
`polymlp_functions_interface.cpp` 145-170, over the real numbers.  They work with angles and tabulate the
coefficients of the recurrence.  Arrays are functions on `ℕ`; a `resize`d vector starts with zeros.  The decimal
constants stand for the numbers named in the code.  The index `lm2i(l, l - mp)` of integers is `lm2iNeg l mp`.  For
`lmax = 0` the code reads `q[1]` of a vector of length one in `compute_ylm_der` (line 92); the model reads zero there.
-/

namespace Verif.Mlp
open Real

/-- `A_` and `B_` (`polymlp_mlipkk_spherical_harmonics.cpp` 20-30). -/
noncomputable def depAB (lmax : ℕ) : (ℕ → ℝ) × (ℕ → ℝ) :=
  (List.range' 2 (lmax - 1)).foldl
    (fun ab (l : ℕ) => (List.range (l - 1)).foldl
      (fun (ab : (ℕ → ℝ) × (ℕ → ℝ)) (m : ℕ) =>
        let ls : ℝ := (l : ℝ) * l
        let lm1s : ℝ := ((l : ℝ) - 1) * ((l : ℝ) - 1)
        let ms : ℝ := (m : ℝ) * m
        (put ab.1 (lm2i l m) √((4.0 * ls - 1.0) / (ls - ms)),
          put ab.2 (lm2i l m) (-√((lm1s - ms) / (4.0 * lm1s - 1.0))))) ab)
    (fun _ => 0, fun _ => 0)

/-- The body of the loop over `l` of both Legendre tables (`polymlp_mlipkk_spherical_harmonics.cpp` 143-156, 171-184):
`m0` is where the loop over `m` starts, 0 for `p` and 1 for `q`; the state is `tmp` and the table. -/
noncomputable def depRow (ab : (ℕ → ℝ) × (ℕ → ℝ)) (costheta sintheta : ℝ) (m0 : ℕ) (s : ℝ × (ℕ → ℝ)) (l : ℕ) :
    ℝ × (ℕ → ℝ) :=
  let p1 := (List.range' m0 (l - 1 - m0)).foldl
    (fun p m => put p (lm2i l m)
      (ab.1 (lm2i l m) * (costheta * p (lm2i (l - 1) m) + ab.2 (lm2i l m) * p (lm2i (l - 2) m)))) s.2
  let p2 := put p1 (lm2i l (l - 1)) (costheta * √(2.0 * ((l : ℝ) - 1.0) + 3.0) * s.1)
  let tmp := s.1 * (-√(1.0 + 0.5 / l) * sintheta)
  (tmp, put p2 (lm2i l l) tmp)

/-- `compute_normalized_associated_legendre` (`polymlp_mlipkk_spherical_harmonics.cpp` 124-157). -/
noncomputable def depP (lmax : ℕ) (costheta : ℝ) : ℕ → ℝ :=
  let p0 := put (fun _ => 0) (lm2i 0 0) sqrtInv2Pi
  if lmax = 0 then p0
  else
    let sintheta := √(1.0 - costheta * costheta)
    let p1 := put p0 (lm2i 1 0) (costheta * √3 * sqrtInv2Pi)
    let tmp := sqrtInv2Pi * (-√(3 / 2) * sintheta)
    let p2 := put p1 (lm2i 1 1) tmp
    ((List.range' 2 (lmax - 1)).foldl (depRow (depAB lmax) costheta sintheta 0) (tmp, p2)).2

/-- `compute_normalized_associated_legendre_sintheta` (`polymlp_mlipkk_spherical_harmonics.cpp` 159-185). -/
noncomputable def depQ (lmax : ℕ) (costheta : ℝ) : ℕ → ℝ :=
  if lmax = 0 then fun _ => 0
  else
    let sintheta := √(1.0 - costheta * costheta)
    let tmp := -√(3 / (4 * π))
    let q1 := put (fun _ => 0) (lm2i 1 1) tmp
    ((List.range' 2 (lmax - 1)).foldl (depRow (depAB lmax) costheta sintheta 1) (tmp, q1)).2

/-- `compute_ylm` (`polymlp_mlipkk_spherical_harmonics.cpp` 32-59). -/
noncomputable def depYlm (lmax : ℕ) (costheta azimuthal : ℝ) : ℕ → Cx ℝ :=
  let p := depP lmax costheta
  let y0 := (List.range (lmax + 1)).foldl
    (fun y l => put y (lm2iNeg l 0) ⟨p (lm2i l 0) * 0.5 * √2, 0⟩) (fun _ => 0)
  let tc := 2.0 * cos azimuthal
  ((List.range' 1 lmax).foldl
    (fun (s : Azim × (ℕ → Cx ℝ)) mp =>
      let a := s.1.step tc
      let y := (List.range' mp (lmax + 1 - mp)).foldl
        (fun y l =>
          let tmp := a.sign * p (lm2i l mp) * 0.5 * √2
          put y (lm2iNeg l mp) (Cx.smul tmp ⟨a.c1, -a.s1⟩)) s.2
      (a.flip, y))
    (Azim.start (cos azimuthal) (sin azimuthal), y0)).2

/-- The three derivatives. -/
structure Der3 where
  dx : ℕ → Cx ℝ
  dy : ℕ → Cx ℝ
  dz : ℕ → Cx ℝ

/-- The loop body for `m = 0` (`polymlp_mlipkk_spherical_harmonics.cpp` 91-96). -/
noncomputable def depZero (q : ℕ → ℝ) (costheta sintheta cosphi sinphi invr : ℝ) (o : Der3) (l : ℕ) : Der3 :=
  let common := q (lm2i l 1) * sintheta * invr * √(0.5 * l * (l + 1))
  ⟨put o.dx (lm2iNeg l 0) ⟨common * costheta * cosphi, 0⟩,
    put o.dy (lm2iNeg l 0) ⟨common * costheta * sinphi, 0⟩,
    put o.dz (lm2iNeg l 0) ⟨-common * sintheta, 0⟩⟩

/-- The loop body for `m = -mp` (`polymlp_mlipkk_spherical_harmonics.cpp` 103-117). -/
noncomputable def depNeg (q : ℕ → ℝ) (costheta sintheta cosphi sinphi invr : ℝ) (a : Azim) (mp : ℕ) (o : Der3) (l : ℕ) :
    Der3 :=
  let eimphi : Cx ℝ := ⟨a.c1, a.s1⟩
  let common := Cx.smul invr (Cx.smul √2 (Cx.smul 0.5 eimphi))
  let dtheta0 := (mp : ℝ) * costheta * q (lm2i l mp)
  let dtheta := if mp ≠ l then dtheta0 + √(((l : ℝ) - mp) * (l + mp + 1)) * q (lm2i l (mp + 1)) * sintheta
    else dtheta0
  let dphi : Cx ℝ := ⟨0.0, (mp : ℝ) * q (lm2i l mp)⟩
  ⟨put o.dx (lm2iNeg l mp) (Cx.smul a.sign (Cx.conj (common *
      ((⟨dtheta * costheta * cosphi, 0⟩ : Cx ℝ) - Cx.smul sinphi dphi)))),
    put o.dy (lm2iNeg l mp) (Cx.smul a.sign (Cx.conj (common *
      ((⟨dtheta * costheta * sinphi, 0⟩ : Cx ℝ) + Cx.smul cosphi dphi)))),
    put o.dz (lm2iNeg l mp) (Cx.smul a.sign (Cx.conj (Cx.smul sintheta (Cx.smul dtheta (-common)))))⟩

/-- `compute_ylm_der` (`polymlp_mlipkk_spherical_harmonics.cpp` 69-120). -/
noncomputable def depDer (lmax : ℕ) (costheta azimuthal r : ℝ) : Der3 :=
  let q := depQ lmax costheta
  let sintheta := √(1.0 - costheta * costheta)
  let cosphi := cos azimuthal
  let sinphi := sin azimuthal
  let invr := 1.0 / r
  let o := (List.range (lmax + 1)).foldl (depZero q costheta sintheta cosphi sinphi invr)
    ⟨fun _ => 0, fun _ => 0, fun _ => 0⟩
  let tc := 2.0 * cosphi
  ((List.range' 1 lmax).foldl
    (fun (s : Azim × Der3) mp =>
      let a := s.1.step tc
      (a.flip, (List.range' mp (lmax + 1 - mp)).foldl
        (depNeg q costheta sintheta cosphi sinphi invr a mp) s.2))
    (Azim.start cosphi sinphi, o)).2

/-- `get_ylm_polar` without derivatives (`polymlp_functions_interface.cpp` 145-154). -/
noncomputable def getYlmPolar (lmax : ℕ) (polar azimuthal : ℝ) : ℕ → Cx ℝ := depYlm lmax (cos polar) azimuthal

/-- `get_ylm_polar` with derivatives (`polymlp_functions_interface.cpp` 156-170). -/
noncomputable def getYlmPolarDer (lmax : ℕ) (r polar azimuthal : ℝ) : (ℕ → Cx ℝ) × Der3 :=
  (depYlm lmax (cos polar) azimuthal, depDer lmax (cos polar) azimuthal r)

end Verif.Mlp
