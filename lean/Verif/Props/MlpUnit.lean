import Verif.Model.MlpFn
import Verif.Model.MlpGtinv
import Verif.Props.MlpEval
import Verif.Lemmas.Neighbor
import Mathlib.Analysis.Real.Sqrt

/-!
# C31: unit conversion
-/

namespace Verif.Mlp
open Verif.Neighbor (Vec Csr r2 mkCsr)

section General
variable {K : Type} [Field K]

/-- `convert_unit` multiplies the sums of a pair potential. -/
theorem sumPair_convertUnit (P : Pot K) (c : K) (a : ℕ → K) (l : ℕ) :
    ((P.convertUnit c).sumPair a).1 l = c * (P.sumPair a).1 l ∧
    ((P.convertUnit c).sumPair a).2 l = c * (P.sumPair a).2 l := by
  have h1 := sumPair_eq (P.convertUnit c) a l
  have h2 := sumPair_eq P a l
  rw [h1.1, h1.2, h2.1, h2.2]
  have hm : (P.convertUnit c).model.getD l [] =
      (P.model.getD l []).map fun t => { t with ce := t.ce * c, cf := t.cf * c } := by
    unfold Pot.convertUnit
    simp only [List.getD_eq_getElem?_getD, List.getElem?_map]
    cases P.model[l]? <;> rfl
  rw [hm, List.map_map, List.map_map]
  have hf : (P.convertUnit c).features = P.features := rfl
  have hp : (P.convertUnit c).poly = P.poly := rfl
  rw [hf, hp]
  constructor
  · rw [mul_left_comm, ← sum_map_mul_left' (c := c)]
    congr 1
    refine sum_map_congr _ _ _ ?_
    intro t _
    simp only [Function.comp]
    ring
  · rw [mul_left_comm, ← sum_map_mul_left' (c := c)]
    congr 1
    refine sum_map_congr _ _ _ ?_
    intro t _
    simp only [Function.comp]
    ring

/-- **C31 (invariants, violation).**  For invariant features `convert_unit` changes nothing at all:
the sums are read from a copy that is not scaled. -/
theorem C31_gtinv_unchanged (P : Pot K) (c : K) (fvals : ℕ → K) (a : ℕ → Cx K) :
    (P.convertUnit c).sumGtinv fvals a = P.sumGtinv fvals a := rfl

end General

/-- A potential with one invariant `a_0`. -/
def exPot : Pot ℚ := mkPot true (fun _ => false) some 1 [[(1, [0])]] [(0, [0])] (fun _ => 3)

/-- **C31 (invariants, witness).**  The property fails: after `convert_unit(2)` the sum is 3, not 6. -/
theorem C31_gtinv_violation :
    ((exPot.convertUnit 2).sumGtinv (fun _ => 1) (fun _ => ⟨1, 0⟩)).1 0 ≠
      Cx.smul 2 ((exPot.sumGtinv (fun _ => 1) (fun _ => ⟨1, 0⟩)).1 0) := by
  decide +kernel

/-! ## Length conversion -/

section Length
variable (len : ℝ)

/-- Change of the unit of length of an entry of a neighbour list. -/
def scaleEntry (e : ℕ × Vec ℝ) : ℕ × Vec ℝ := (e.1, fun x => len * e.2 x)

theorem completeRow_scale (rows : List (List (ℕ × Vec ℝ))) (i : ℕ) :
    Spec.completeRow (rows.map fun r => r.map (scaleEntry len)) i =
      (Spec.completeRow rows i).map (scaleEntry len) := by
  unfold Spec.completeRow
  have hg : ∀ m : ℕ, (rows.map fun r => r.map (scaleEntry len))[m]?.getD [] =
      (rows[m]?.getD []).map (scaleEntry len) := by
    intro m
    rw [List.getElem?_map]
    cases rows[m]? <;> rfl
  rw [hg, List.map_append, List.length_map, List.map_flatMap]
  congr 1
  congr 1
  funext m
  rw [hg, List.filterMap_map, List.map_filterMap]
  congr 1
  funext e
  show (if e.1 = i then some (m, -(scaleEntry len e).2) else none) =
    Option.map (scaleEntry len) (if e.1 = i then some (m, -e.2) else none)
  by_cases h : e.1 = i
  · rw [if_pos h, if_pos h, Option.map_some]
    simp only [scaleEntry, Option.some.injEq, Prod.mk.injEq, true_and]
    funext x
    simp
  · rw [if_neg h, if_neg h]
    rfl

theorem disOf_scale (hl : 0 < len) (d : Vec ℝ) :
    disOf Real.sqrt (fun x => len * d x) = len * disOf Real.sqrt d := by
  unfold disOf r2
  rw [show len * d 0 * (len * d 0) + len * d 1 * (len * d 1) + len * d 2 * (len * d 2) =
    (len * len) * (d 0 * d 0 + d 1 * d 1 + d 2 * d 2) by ring,
    Real.sqrt_mul (mul_self_nonneg len), Real.sqrt_mul_self hl.le]

variable (g : GaussParams) (inv : ℝ)

theorem getFn_scale (hl : 0 < len) (hinv : inv = 1 / len) (n : ℕ) (r : ℝ) :
    getFn (g.convertLength len inv).params (g.cutoff * len) n (len * r) = getFn g.params g.cutoff n r ∧
    (getFnD (g.convertLength len inv).params (g.cutoff * len) n (len * r)).2 =
      inv * (getFnD g.params g.cutoff n r).2 := by
  have hne : len ≠ 0 := hl.ne'
  have hcut : len * r < g.cutoff * len ↔ r < g.cutoff := by
    rw [mul_comm]; exact mul_lt_mul_iff_left₀ hl
  have hg : -((g.params n).1 * (inv * inv)) * (len * r - (g.params n).2 * len) *
      (len * r - (g.params n).2 * len) =
      -(g.params n).1 * (r - (g.params n).2) * (r - (g.params n).2) := by
    rw [hinv]; field_simp
  have hdiv : Real.pi * (len * r) / (g.cutoff * len) = Real.pi * r / g.cutoff := by
    rw [show Real.pi * (len * r) = (Real.pi * r) * len by ring]
    exact mul_div_mul_right _ _ hne
  have hval : Real.pi / (g.cutoff * len) * (len * r) = Real.pi / g.cutoff * r := by
    rw [← div_div]; field_simp
  constructor
  · unfold getFn gauss cosCut GaussParams.convertLength
    simp only [hcut, hdiv]
    rw [hg]
  · unfold getFnD gaussD cosCutD GaussParams.convertLength
    simp only [hcut, hval]
    rw [hg]
    split_ifs
    · simp only
      rw [hinv]
      field_simp
    · rw [show (0.0 : ℝ) = 0 by norm_num]
      simp

/-- The response of scaled entries. -/
theorem resp_scale (hl : 0 < len) (types : ℕ → ℕ) (i : ℕ) (row : List (ℕ × Vec ℝ))
    (ρ ρ' : ℕ × Vec ℝ → ℕ → ℝ) (k : ℝ) (hρ : ∀ e m, ρ' (scaleEntry len e) m = k * ρ e m) (l : ℕ) :
    resp (g.convertLength len inv).pair Real.sqrt types i (row.map (scaleEntry len)) ρ' l =
      k * resp g.pair Real.sqrt types i row ρ l := by
  unfold resp
  rw [List.map_map, ← sum_map_mul_left']
  refine sum_map_congr _ _ _ ?_
  intro e _
  simp only [Function.comp]
  have hd : disOf Real.sqrt (scaleEntry len e).2 = len * disOf Real.sqrt e.2 :=
    disOf_scale len hl e.2
  have hc : (g.convertLength len inv).pair.cutoff ≤ disOf Real.sqrt (scaleEntry len e).2 ↔
      g.pair.cutoff ≤ disOf Real.sqrt e.2 := by
    rw [hd]
    show g.cutoff * len ≤ len * _ ↔ g.cutoff ≤ _
    rw [mul_comm len]
    exact mul_le_mul_iff_left₀ hl
  simp only [hc]
  split_ifs
  · simp
  · rw [← sum_map_mul_left']
    refine sum_map_congr _ _ _ ?_
    intro a _
    show (if g.pair.maps.typePairs (types i) (types e.1) = a.tp then _ else _) = _
    split_ifs
    · exact hρ e a.nId
    · simp
    · simp

theorem fnAt_scale (f f' : ℕ → ℝ → ℝ) (c r r' : ℝ) (h : ∀ n, f' n r' = c * f n r) (ns : List ℕ)
    (k : ℕ) : fnAt f' ns r' k = c * fnAt f ns r k := by
  unfold fnAt
  simp only [List.getD_eq_getElem?_getD, List.getElem?_map]
  cases ns[k]? with
  | none => simp
  | some n => simp [h]

theorem weights_scale (hl : 0 < len) (hinv : inv = 1 / len) (types : ℕ → ℕ) (i : ℕ)
    (e : ℕ × Vec ℝ) (k : ℕ) :
    wE (g.convertLength len inv).pair Real.sqrt types i (scaleEntry len e) k =
      1 * wE g.pair Real.sqrt types i e k ∧
    (∀ q x, wF (g.convertLength len inv).pair Real.sqrt types q x i (scaleEntry len e) k =
      inv * wF g.pair Real.sqrt types q x i e k) ∧
    (∀ c, wS (g.convertLength len inv).pair Real.sqrt types c i (scaleEntry len e) k =
      1 * wS g.pair Real.sqrt types c i e k) := by
  have hne : len ≠ 0 := hl.ne'
  have hd : disOf Real.sqrt (scaleEntry len e).2 = len * disOf Real.sqrt e.2 :=
    disOf_scale len hl e.2
  have hV : ∀ x, wV (g.convertLength len inv).pair Real.sqrt types i (scaleEntry len e) k x =
      inv * wV g.pair Real.sqrt types i e k x := by
    intro x
    unfold wV
    rw [hd]
    have h := fnAt_scale g.pair.radD (g.convertLength len inv).pair.radD inv (disOf Real.sqrt e.2)
      (len * disOf Real.sqrt e.2) (fun n => (getFn_scale len g inv hl hinv n _).2)
      (g.pair.maps.tpN.getD (g.pair.maps.typePairs (types i) (types e.1)) []) k
    show fnAt (g.convertLength len inv).pair.radD
      (g.pair.maps.tpN.getD (g.pair.maps.typePairs (types i) (types e.1)) []) _ k * (len * e.2 x) / _ = _
    rw [h]
    have h2 : ∀ u v w : ℝ, inv * u * (len * v) / (len * w) = inv * (u * v / w) := by
      intro u v w
      rw [show inv * u * (len * v) = len * (inv * (u * v)) by ring, mul_div_mul_left _ _ hne,
        mul_div_assoc]
    exact h2 _ _ _
  refine ⟨?_, ?_, ?_⟩
  · unfold wE
    rw [hd]
    exact fnAt_scale g.pair.rad (g.convertLength len inv).pair.rad 1 (disOf Real.sqrt e.2)
      (len * disOf Real.sqrt e.2)
      (fun n => by rw [one_mul]; exact (getFn_scale len g inv hl hinv n _).1) _ k
  · intro q x
    unfold wF
    rw [hV x]
    show (if q = i then _ else _) + (if q = e.1 then _ else _) = _
    split_ifs <;> ring
  · intro c
    unfold wS
    have hil : inv * len = 1 := by rw [hinv]; field_simp
    have : wV (g.convertLength len inv).pair Real.sqrt types i (scaleEntry len e) k =
        fun x => inv * wV g.pair Real.sqrt types i e k x := funext hV
    rw [this, one_mul]
    congr 1
    have hs : ∀ (u v : Vec ℝ), six (fun x => inv * u x) (fun x => len * v x) c =
        (inv * len) * six u v c := by
      intro u v
      fin_cases c <;> simp [six] <;> ring
    rw [show (scaleEntry len e).2 = fun x => len * e.2 x from rfl, hs, hil, one_mul]

/-- **C31 (pair features).**  `convert_unit(energy_conv, length_conv, 1/length_conv)` expresses the
same potential in other units: for the structure with all lengths multiplied by `length_conv`, the
energy and the stress (an energy) are multiplied by `energy_conv` and the forces by
`energy_conv / length_conv`. -/
theorem C31_pair (hl : 0 < len) (hinv : inv = 1 / len) (conv : ℝ) (types : ℕ → ℕ)
    (rows : List (List (ℕ × Vec ℝ))) (hrows : ∀ r ∈ rows, ∀ e ∈ r, e.1 < rows.length)
    (htypes : ∀ i < rows.length, types i < g.nType) (c : ℕ → ℝ) :
    let old := evalPair g.pair Real.sqrt (g.pair.pot c) types rows.length (mkCsr rows)
    let g' := g.convertLength len inv
    let new := evalPair g'.pair Real.sqrt (fun t => (g'.pair.pot c t).convertUnit conv) types
      rows.length (mkCsr (rows.map fun r => r.map (scaleEntry len)))
    new.energy = conv * old.energy ∧
    (∀ q x, new.forces q x = conv / len * old.forces q x) ∧
    (∀ s, new.stress s = conv * old.stress s) := by
  intro old g' new
  have hlen : (rows.map fun r => r.map (scaleEntry len)).length = rows.length := by simp
  have hrows' : ∀ r ∈ rows.map fun r => r.map (scaleEntry len), ∀ e ∈ r,
      e.1 < (rows.map fun r => r.map (scaleEntry len)).length := by
    rw [hlen]
    intro r hr e he
    rw [List.mem_map] at hr
    obtain ⟨r0, hr0, rfl⟩ := hr
    rw [List.mem_map] at he
    obtain ⟨e0, he0, rfl⟩ := he
    exact hrows r0 hr0 e0 he0
  have htypes' : ∀ i < (rows.map fun r => r.map (scaleEntry len)).length,
      types i < g'.pair.nType := by
    rw [hlen]; exact htypes
  have hnew : new = evalPair g'.pair Real.sqrt (fun t => (g'.pair.pot c t).convertUnit conv) types
      (rows.map fun r => r.map (scaleEntry len)).length
      (mkCsr (rows.map fun r => r.map (scaleEntry len))) := by rw [hlen]
  -- the products of an atom do not change
  have hresp : ∀ i l, resp g'.pair Real.sqrt types i
      (Spec.completeRow (rows.map fun r => r.map (scaleEntry len)) i)
      (wE g'.pair Real.sqrt types i) l =
      resp g.pair Real.sqrt types i (Spec.completeRow rows i) (wE g.pair Real.sqrt types i) l := by
    intro i l
    rw [completeRow_scale, resp_scale len g inv hl types i _ (wE g.pair Real.sqrt types i) _ 1
      (fun e m => (weights_scale len g inv hl hinv types i e m).1) l, one_mul]
  have hE : ∀ i, resp g'.pair Real.sqrt types i
      (Spec.completeRow (rows.map fun r => r.map (scaleEntry len)) i)
      (wE g'.pair Real.sqrt types i) =
      resp g.pair Real.sqrt types i (Spec.completeRow rows i) (wE g.pair Real.sqrt types i) :=
    fun i => funext (hresp i)
  refine ⟨?_, fun q x => ?_, fun s => ?_⟩
  · rw [hnew, evalPair_proj g'.pair Real.sqrt types _ hrows' htypes' _ (fun s => s.energy) _ rfl
        (fun s i e => collectStep_energy g'.pair.cutoff Real.sqrt s i e) (wE g'.pair Real.sqrt types)
        (fun s => s.1) (fun i e k hi he => wE_symm g'.pair Real.sqrt types i e hi he k)
        (fun pe pf i e => evalEntry_energy g'.pair Real.sqrt types pe pf i e),
      show old.energy = _ from evalPair_proj g.pair Real.sqrt types rows hrows htypes _
        (fun s => s.energy) _ rfl
        (fun s i e => collectStep_energy g.pair.cutoff Real.sqrt s i e) (wE g.pair Real.sqrt types)
        (fun s => s.1) (fun i e k hi he => wE_symm g.pair Real.sqrt types i e hi he k)
        (fun pe pf i e => evalEntry_energy g.pair Real.sqrt types pe pf i e),
      hlen, ← sum_map_mul_left']
    refine sum_map_congr _ _ _ ?_
    intro i _
    rw [← sum_map_mul_left']
    refine sum_map_congr _ _ _ ?_
    intro l _
    rw [hE i, (sumPair_convertUnit _ conv _ l).1]
    show conv * ((g.pair.pot c (types i)).sumPair _).1 l * _ = _
    ring
  · rw [hnew, evalPair_proj g'.pair Real.sqrt types _ hrows' htypes' _ (fun s => s.forces q x) _ rfl
        (fun s i e => collectStep_forces g'.pair.cutoff Real.sqrt q x s i e)
        (wF g'.pair Real.sqrt types q x)
        (fun s => s.2) (fun i e k hi he => wF_symm g'.pair Real.sqrt types q x i e hi he k)
        (fun pe pf i e => evalEntry_forces g'.pair Real.sqrt types pe pf q x i e),
      show old.forces q x = _ from evalPair_proj g.pair Real.sqrt types rows hrows htypes _
        (fun s => s.forces q x) _ rfl
        (fun s i e => collectStep_forces g.pair.cutoff Real.sqrt q x s i e)
        (wF g.pair Real.sqrt types q x)
        (fun s => s.2) (fun i e k hi he => wF_symm g.pair Real.sqrt types q x i e hi he k)
        (fun pe pf i e => evalEntry_forces g.pair Real.sqrt types pe pf q x i e),
      hlen, ← sum_map_mul_left']
    refine sum_map_congr _ _ _ ?_
    intro i _
    rw [← sum_map_mul_left']
    refine sum_map_congr _ _ _ ?_
    intro l _
    rw [hE i, (sumPair_convertUnit _ conv _ l).2, completeRow_scale,
      resp_scale len g inv hl types i _ (wF g.pair Real.sqrt types q x i) _ inv
        (fun e m => (weights_scale len g inv hl hinv types i e m).2.1 q x) l]
    rw [show conv / len = conv * inv by rw [hinv]; ring]
    show conv * ((g.pair.pot c (types i)).sumPair _).2 l * (inv * _) = _
    ring
  · rw [hnew, evalPair_proj g'.pair Real.sqrt types _ hrows' htypes' _ (fun t => t.stress s) _ rfl
        (fun t i e => collectStep_stress g'.pair.cutoff Real.sqrt s t i e)
        (wS g'.pair Real.sqrt types s)
        (fun s => s.2) (fun i e k hi he => wS_symm g'.pair Real.sqrt types s i e hi he k)
        (fun pe pf i e => evalEntry_stress g'.pair Real.sqrt types pe pf s i e),
      show old.stress s = _ from evalPair_proj g.pair Real.sqrt types rows hrows htypes _
        (fun t => t.stress s) _ rfl
        (fun t i e => collectStep_stress g.pair.cutoff Real.sqrt s t i e)
        (wS g.pair Real.sqrt types s)
        (fun s => s.2) (fun i e k hi he => wS_symm g.pair Real.sqrt types s i e hi he k)
        (fun pe pf i e => evalEntry_stress g.pair Real.sqrt types pe pf s i e),
      hlen, ← sum_map_mul_left']
    refine sum_map_congr _ _ _ ?_
    intro i _
    rw [← sum_map_mul_left']
    refine sum_map_congr _ _ _ ?_
    intro l _
    rw [hE i, (sumPair_convertUnit _ conv _ l).2, completeRow_scale,
      resp_scale len g inv hl types i _ (wS g.pair Real.sqrt types s i) _ 1
        (fun e m => (weights_scale len g inv hl hinv types i e m).2.2 s) l]
    show conv * ((g.pair.pot c (types i)).sumPair _).2 l * (1 * _) = _
    ring

end Length

/-- Ångström to Bohr and eV to Rydberg meet the hypotheses, for two atoms with one pair. -/
example : (0 : ℝ) < 1.8897 ∧
    (∀ r ∈ [[], [(0, (![1, 0, 0] : Vec ℝ))]], ∀ e ∈ r, e.1 < 2) := by
  refine ⟨by norm_num, ?_⟩
  intro r hr e he
  simp only [List.mem_cons, List.not_mem_nil, or_false] at hr
  rcases hr with rfl | rfl
  · simp at he
  · simp only [List.mem_singleton] at he
    rw [he]; decide

end Verif.Mlp
