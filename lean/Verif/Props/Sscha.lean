import Verif.Spec.Sscha
import Mathlib.Tactic.Linarith
import Mathlib.Tactic.Module
import Mathlib.Tactic.NormNum
import Mathlib.Tactic.FieldSimp

/-!
# C67: the SSCHA iterations
-/

namespace Verif.Sscha
open Verif.Spec

variable {V P : Type} [NormedAddCommGroup V] [NormedSpace ℝ V]

/-- The entry of the log for step `k`. -/
noncomputable def entryAt (c : Config) (w : World V P) (temp : ℝ) (seed : ℕ) (fc0 : V) (k : ℕ) : Data P :=
  ⟨temp, propsAt w c.mixing temp c.nSamplesInit seed fc0 k, some (scoreAt w c.mixing temp c.nSamplesInit seed fc0 k), none⟩

theorem singleIter_at (c : Config) (w : World V P) (temp : ℝ) (seed : ℕ) (fc0 : V) (k : ℕ) (o : Option V)
    (log0 : List (Data P)) :
    singleIter c w temp c.nSamplesInit (fcAt w c.mixing temp c.nSamplesInit seed fc0 k)
      ⟨o, log0 ++ (List.range k).map (entryAt c w temp seed fc0), seed + k⟩ =
    ⟨some (fcAt w c.mixing temp c.nSamplesInit seed fc0 (k + 1)),
      log0 ++ (List.range (k + 1)).map (entryAt c w temp seed fc0), seed + (k + 1)⟩ := by
  rw [List.range_succ, List.map_append, ← List.append_assoc]
  rfl

theorem loop_at (c : Config) (w : World V P) (temp : ℝ) (seed : ℕ) (fc0 : V) (log0 : List (Data P)) (m : ℕ) :
    ∀ (k : ℕ) (o : Option V) (delta : Score), max c.maxIter 2 + 1 - (k + 1) = m → k ≤ max c.maxIter 2 →
      (1 ≤ k → delta = scoreAt w c.mixing temp c.nSamplesInit seed fc0 (k - 1)) →
      (k ≠ 0 → o = some (fcAt w c.mixing temp c.nSamplesInit seed fc0 k)) →
    ∃ N, 2 ≤ N ∧ k ≤ N ∧ N ≤ max c.maxIter 2 ∧
      (∀ j, k ≤ j → 2 ≤ j → j < N → (scoreAt w c.mixing temp c.nSamplesInit seed fc0 (j - 1)).gt c.tol) ∧
      (N = max c.maxIter 2 ∨ ¬ (scoreAt w c.mixing temp c.nSamplesInit seed fc0 (N - 1)).gt c.tol) ∧
      loop c w temp (k + 1) delta (fcAt w c.mixing temp c.nSamplesInit seed fc0 k)
        ⟨o, log0 ++ (List.range k).map (entryAt c w temp seed fc0), seed + k⟩ =
      (fcAt w c.mixing temp c.nSamplesInit seed fc0 N, scoreAt w c.mixing temp c.nSamplesInit seed fc0 (N - 1),
        ⟨some (fcAt w c.mixing temp c.nSamplesInit seed fc0 N),
          log0 ++ (List.range N).map (entryAt c w temp seed fc0), seed + N⟩) := by
  induction m with
  | zero =>
    intro k o delta hm hk hd ho
    have hkm : k = max c.maxIter 2 := by omega
    have hk2 : 2 ≤ k := by omega
    rw [loop, dif_neg (by omega)]
    refine ⟨k, hk2, le_refl k, hk, fun j h1 _ h3 => absurd h3 (by omega), Or.inl hkm, ?_⟩
    rw [ho (by omega), hd (by omega)]
  | succ m ih =>
    intro k o delta hm hk hd ho
    by_cases h : (k + 1 ≤ c.maxIter ∧ delta.gt c.tol) ∨ k + 1 < 3
    · rw [loop, dif_pos h]
      simp only [singleIter_at]
      obtain ⟨N, h1, h2, h3, h4, h5, h6⟩ := ih (k + 1) (some (fcAt w c.mixing temp c.nSamplesInit seed fc0 (k + 1)))
        (scoreAt w c.mixing temp c.nSamplesInit seed fc0 k) (by omega) (by omega) (fun _ => rfl) (fun _ => rfl)
      refine ⟨N, h1, by omega, h3, fun j hj h2j hjN => ?_, h5, ?_⟩
      · rcases Nat.eq_or_lt_of_le hj with rfl | hlt
        · rcases h with ⟨_, hg⟩ | hg
          · rw [← hd (by omega)]
            exact hg
          · omega
        · exact h4 j hlt h2j hjN
      · rw [← h6]
        congr 1
        unfold lastDelta
        rw [List.range_succ, List.map_append, List.map_singleton, ← List.append_assoc, List.getLast?_concat]
        rfl
    · rw [loop, dif_neg h]
      push Not at h
      have hk2 : 2 ≤ k := by omega
      refine ⟨k, hk2, le_refl k, hk, fun j h1 _ h3 => absurd h3 (by omega), ?_, ?_⟩
      · rw [← hd (by omega)]
        by_cases hle : k + 1 ≤ c.maxIter
        · exact Or.inr (h.1 hle)
        · left
          omega
      · rw [ho (by omega), hd (by omega)]

/-- **C67.**  A run from the force constants `fc0` makes `N` steps of linear mixing, at least two and at most the
largest number of iterations (or two); it stops at the first step from the second on whose score is not above the
tolerance.  The force constants are those after `N` steps.  The log has one entry per step, with the properties of
the force constants before the step.  The run is reported as converged exactly when the last score is below the
tolerance; then a last entry has the properties of the returned force constants, from the larger number of
samples. -/
theorem C67_run (c : Config) (w : World V P) (temp : ℝ) (initializeHistory : Bool) (st : State V P) (fc0 : V)
    (h0 : st.fc2 = some fc0) :
    let fc := fcAt w c.mixing temp c.nSamplesInit st.calls fc0
    let score := scoreAt w c.mixing temp c.nSamplesInit st.calls fc0
    let props := propsAt w c.mixing temp c.nSamplesInit st.calls fc0
    let old := if initializeHistory then [] else st.log
    ∃ (N : ℕ) (st' : State V P), run c w temp initializeHistory st = .ok st' ∧
      2 ≤ N ∧ N ≤ max c.maxIter 2 ∧
      (∀ j, 2 ≤ j → j < N → (score (j - 1)).gt c.tol) ∧
      (N = max c.maxIter 2 ∨ ¬ (score (N - 1)).gt c.tol) ∧
      st'.fc2 = some (fc N) ∧
      ((score (N - 1)).lt c.tol →
        st'.log = old ++ (List.range N).map (fun k => ⟨temp, props k, some (score k), none⟩) ++
          [⟨temp, (w.step (st.calls + N) temp c.nSamplesFinal (fc N)).1, some (score (N - 1)), some true⟩]) ∧
      (¬ (score (N - 1)).lt c.tol →
        st'.log = old ++ (List.range (N - 1)).map (fun k => ⟨temp, props k, some (score k), none⟩) ++
          [⟨temp, props (N - 1), some (score (N - 1)), some false⟩]) := by
  obtain ⟨o, log, calls⟩ := st
  simp only at h0
  subst h0
  intro fc score props old
  obtain ⟨N, h1, -, h3, h4, h5, h6⟩ := loop_at c w temp calls fc0 old _ 0 (some fc0) (.val (10 ^ 10)) rfl
    (Nat.zero_le _) (fun h => absurd h (by omega)) (fun h => absurd rfl h)
  have hst : (if initializeHistory then { (⟨some fc0, log, calls⟩ : State V P) with log := [] }
      else ⟨some fc0, log, calls⟩) = (⟨some fc0, old, calls⟩ : State V P) := by
    cases initializeHistory <;> rfl
  simp only [List.range_zero, List.map_nil, List.append_nil, Nat.add_zero, Nat.zero_add] at h6
  have hrun : run c w temp initializeHistory ⟨some fc0, log, calls⟩ = .ok (conclude c w temp (fc N) (score (N - 1))
      ⟨some (fc N), old ++ (List.range N).map (entryAt c w temp calls fc0), calls + N⟩) := by
    rw [run]
    simp only [hst]
    rw [show loop c w temp 1 (.val (10 ^ 10)) fc0 ⟨some fc0, old, calls⟩ = _ from h6]
  obtain ⟨M, rfl⟩ : ∃ M, N = M + 1 := ⟨N - 1, by omega⟩
  refine ⟨M + 1, _, hrun, h1, h3, fun j => h4 j (Nat.zero_le _), h5, ?_, fun hl => ?_, fun hl => ?_⟩
  · unfold conclude
    split <;> rfl
  · rw [conclude, if_pos hl]
    simp only [finalIter, setCurrent]
    rw [List.dropLast_concat, List.getLast?_concat]
    rfl
  · rw [conclude, if_neg hl]
    simp only [setCurrent]
    rw [List.range_succ, List.map_append, List.map_singleton, ← List.append_assoc, List.dropLast_concat,
      List.getLast?_concat]
    rfl

/-! ## What the score measures -/

/-- For a mixing parameter between zero and one, the distance in the score is `1 - mixing` times the distance of
the fitted force constants from the old ones, and the change of the force constants is `mixing` times that
distance. -/
theorem C67_score (c : Config) (w : World V P) (temp : ℝ) (n seed : ℕ) (fc0 : V) (k : ℕ) (h0 : 0 ≤ c.mixing)
    (h1 : c.mixing ≤ 1) :
    let fc := fcAt w c.mixing temp n seed fc0
    let fitted := fittedAt w c.mixing temp n seed fc0
    ‖fitted k - fc (k + 1)‖ = (1 - c.mixing) * ‖fitted k - fc k‖ ∧
      ‖fc (k + 1) - fc k‖ = c.mixing * ‖fitted k - fc k‖ := by
  intro fc fitted
  have hs : fc (k + 1) = c.mixing • fitted k + (1 - c.mixing) • fc k := rfl
  constructor
  · rw [show fitted k - fc (k + 1) = (1 - c.mixing) • (fitted k - fc k) by rw [hs]; module, norm_smul,
      Real.norm_of_nonneg (by linarith)]
  · rw [show fc (k + 1) - fc k = c.mixing • (fitted k - fc k) by rw [hs]; module, norm_smul,
      Real.norm_of_nonneg h0]

theorem Score.div_lt {a b t : ℝ} (hb : 0 ≤ b) (h : (Score.div a b).lt t) : b ≠ 0 ∧ a < t * b := by
  unfold Score.div at h
  split at h
  · split at h <;> exact absurd h id
  · rename_i hb0
    exact ⟨hb0, (div_lt_iff₀ (lt_of_le_of_ne hb (Ne.symm hb0))).1 h⟩

/-- **C67.**  A run reported as converged returns force constants that agree, up to the tolerance, with the
force constants fitted to the samples of the last step, and its last step changed them by less than
`mixing / (1 - mixing)` times the tolerance.  Partial: for the mixing parameter one this says nothing about the
change; see the violation below. -/
theorem C67_converged_partial (c : Config) (w : World V P) (temp : ℝ) (initializeHistory : Bool)
    (st st' : State V P) (fc0 fcN : V) (d : Data P) (h0 : st.fc2 = some fc0) (hm0 : 0 ≤ c.mixing)
    (hm1 : c.mixing ≤ 1) (hrun : run c w temp initializeHistory st = .ok st') (hfc : st'.fc2 = some fcN)
    (hd : st'.log.getLast? = some d) (hc : d.converge = some true) :
    ∃ N, 2 ≤ N ∧ fcN = fcAt w c.mixing temp c.nSamplesInit st.calls fc0 N ∧
      d.props = (w.step (st.calls + N) temp c.nSamplesFinal fcN).1 ∧
      ‖fittedAt w c.mixing temp c.nSamplesInit st.calls fc0 (N - 1) - fcN‖ < c.tol * ‖fcN‖ ∧
      (0 < c.mixing → (1 - c.mixing) * ‖fcN - fcAt w c.mixing temp c.nSamplesInit st.calls fc0 (N - 1)‖ <
        c.mixing * c.tol * ‖fcN‖) := by
  obtain ⟨N, st'', hr, h2, -, -, -, hf, hconv, hnot⟩ := C67_run c w temp initializeHistory st fc0 h0
  rw [hrun] at hr
  obtain rfl : st' = st'' := by injection hr
  rw [hfc] at hf
  injection hf with hf
  by_cases hl : (scoreAt w c.mixing temp c.nSamplesInit st.calls fc0 (N - 1)).lt c.tol
  · have hlog := hconv hl
    rw [hlog, List.getLast?_concat] at hd
    injection hd with hd
    obtain ⟨M, rfl⟩ : ∃ M, N = M + 1 := ⟨N - 1, by omega⟩
    obtain ⟨-, hlt⟩ := Score.div_lt (norm_nonneg _) hl
    rw [Nat.add_sub_cancel, ← hf] at hlt
    refine ⟨M + 1, h2, hf, by rw [← hd, hf], hlt, fun hm => ?_⟩
    obtain ⟨e1, e2⟩ := C67_score c w temp c.nSamplesInit st.calls fc0 M hm0 hm1
    rw [← hf] at e1 e2
    rw [Nat.add_sub_cancel, e2]
    rw [e1] at hlt
    nlinarith
  · have hlog := hnot hl
    rw [hlog, List.getLast?_concat] at hd
    injection hd with hd
    rw [← hd] at hc
    exact absurd hc (by simp)

/-- The mixing parameter one makes every score zero: as long as the fitted force constants are not zero, every run
is reported as converged after two steps. -/
theorem C67_mixing_one (c : Config) (w : World V P) (temp : ℝ) (initializeHistory : Bool) (st : State V P)
    (fc0 : V) (h0 : st.fc2 = some fc0) (hm : c.mixing = 1) (ht : 0 < c.tol)
    (hne : fcAt w c.mixing temp c.nSamplesInit st.calls fc0 2 ≠ 0) :
    ∃ st' d, run c w temp initializeHistory st = .ok st' ∧ st'.log.getLast? = some d ∧ d.converge = some true ∧
      d.delta = some (.val 0) ∧ st'.fc2 = some (fcAt w c.mixing temp c.nSamplesInit st.calls fc0 2) := by
  obtain ⟨N, st', hr, h2, -, h4, -, hf, hconv, -⟩ := C67_run c w temp initializeHistory st fc0 h0
  have hs : scoreAt w c.mixing temp c.nSamplesInit st.calls fc0 1 = .val 0 := by
    obtain ⟨e1, -⟩ := C67_score c w temp c.nSamplesInit st.calls fc0 1 (by rw [hm]; norm_num) (le_of_eq hm)
    rw [hm, sub_self, zero_mul] at e1
    unfold scoreAt
    rw [hm, e1, Score.div, if_neg (by rw [← hm]; exact norm_ne_zero_iff.2 hne), zero_div]
  have hN : N = 2 := by
    by_contra hne2
    have := h4 2 (le_refl 2) (by omega)
    rw [show (2 - 1 : ℕ) = 1 from rfl, hs] at this
    exact absurd this (not_lt.2 (le_of_lt ht))
  subst hN
  rw [show (2 - 1 : ℕ) = 1 from rfl, hs] at hconv
  refine ⟨st', ⟨temp, (w.step (st.calls + 2) temp c.nSamplesFinal
    (fcAt w c.mixing temp c.nSamplesInit st.calls fc0 2)).1, some (.val 0), some true⟩, hr, ?_, rfl, rfl, hf⟩
  rw [hconv ht, List.getLast?_concat]

/-- Convergence does not mean that the force constants stopped changing: there is a run, reported as converged with
the score zero, in which every step changes the force constants by twice their size. -/
theorem C67_mixing_one_violation :
    ∃ (c : Config) (w : World ℝ ℝ) (st st' : State ℝ ℝ) (d : Data ℝ), st.fc2 = some 1 ∧ 0 < c.tol ∧ c.mixing = 1 ∧
      run c w 300 true st = .ok st' ∧ st'.log.getLast? = some d ∧ d.converge = some true ∧
      d.delta = some (.val 0) ∧ ∀ k, ‖fcAt w c.mixing 300 c.nSamplesInit st.calls 1 (k + 1) -
        fcAt w c.mixing 300 c.nSamplesInit st.calls 1 k‖ =
          2 * ‖fcAt w c.mixing 300 c.nSamplesInit st.calls 1 (k + 1)‖ := by
  set c : Config := ⟨1, 1 / 100, 50, 100, 300⟩ with hcd
  set w : World ℝ ℝ := ⟨fun _ _ _ x => (x, -x)⟩ with hw
  have hs : ∀ k, fcAt w c.mixing 300 c.nSamplesInit 0 1 (k + 1) = -fcAt w c.mixing 300 c.nSamplesInit 0 1 k := by
    intro k
    show (1 : ℝ) • (-(fcAt w c.mixing 300 c.nSamplesInit 0 1 k)) +
      (1 - 1 : ℝ) • (fcAt w c.mixing 300 c.nSamplesInit 0 1 k) = _
    simp
  have h2 : fcAt w c.mixing 300 c.nSamplesInit 0 1 2 = 1 := by
    rw [hs 1, hs 0]
    show - -(1 : ℝ) = 1
    norm_num
  obtain ⟨st', d, h1, h2', h3, h4, -⟩ := C67_mixing_one c w 300 true ⟨some 1, [], 0⟩ 1 rfl rfl (by norm_num [hcd])
    (by rw [h2]; norm_num)
  refine ⟨c, w, ⟨some 1, [], 0⟩, st', d, rfl, by norm_num [hcd], rfl, h1, h2', h3, h4, fun k => ?_⟩
  show ‖fcAt w c.mixing 300 c.nSamplesInit 0 1 (k + 1) - fcAt w c.mixing 300 c.nSamplesInit 0 1 k‖ =
    2 * ‖fcAt w c.mixing 300 c.nSamplesInit 0 1 (k + 1)‖
  rw [hs k, show -fcAt w c.mixing 300 c.nSamplesInit 0 1 k - fcAt w c.mixing 300 c.nSamplesInit 0 1 k =
    2 * -fcAt w c.mixing 300 c.nSamplesInit 0 1 k by ring, norm_mul]
  norm_num

/-- When a run does not converge, the properties it reports do not belong to the force constants it returns, but to
the ones before the last step. -/
theorem C67_unconverged_violation :
    ∃ (c : Config) (w : World ℝ ℝ) (st st' : State ℝ ℝ) (d : Data ℝ) (fc : ℝ), (∀ k t n x, (w.step k t n x).1 = x) ∧
      run c w 300 true st = .ok st' ∧ st'.log.getLast? = some d ∧ d.converge = some false ∧ st'.fc2 = some fc ∧
      d.props ≠ fc := by
  set c : Config := ⟨1 / 2, 1 / 100, 2, 100, 300⟩ with hcd
  set w : World ℝ ℝ := ⟨fun _ _ _ x => (x, 3 * x)⟩ with hw
  have hs : ∀ k, fcAt w c.mixing 300 c.nSamplesInit 0 1 (k + 1) = 2 * fcAt w c.mixing 300 c.nSamplesInit 0 1 k := by
    intro k
    show (1 / 2 : ℝ) * (3 * fcAt w c.mixing 300 c.nSamplesInit 0 1 k) +
      (1 - 1 / 2 : ℝ) * (fcAt w c.mixing 300 c.nSamplesInit 0 1 k) = _
    ring
  have h1 : fcAt w c.mixing 300 c.nSamplesInit 0 1 1 = 2 := by
    rw [hs 0]
    show 2 * (1 : ℝ) = 2
    norm_num
  have h2 : fcAt w c.mixing 300 c.nSamplesInit 0 1 2 = 4 := by
    rw [hs 1, h1]
    norm_num
  have hf : fittedAt w c.mixing 300 c.nSamplesInit 0 1 1 = 6 := by
    show 3 * fcAt w c.mixing 300 c.nSamplesInit 0 1 1 = 6
    rw [h1]
    norm_num
  have hsc : scoreAt w c.mixing 300 c.nSamplesInit 0 1 1 = .val (1 / 2) := by
    unfold scoreAt
    rw [hf, h2, Score.div, if_neg (by norm_num)]
    norm_num
  obtain ⟨N, st', hr, hN1, hN2, -, -, hfc, -, hnot⟩ := C67_run c w 300 true ⟨some 1, [], 0⟩ 1 rfl
  obtain rfl : N = 2 := by
    have : max c.maxIter 2 = 2 := rfl
    omega
  have hl : ¬ (scoreAt w c.mixing 300 c.nSamplesInit 0 1 1).lt c.tol := by
    rw [hsc]
    show ¬ ((1 / 2 : ℝ) < 1 / 100)
    norm_num
  refine ⟨c, w, ⟨some 1, [], 0⟩, st', _, 4, fun _ _ _ _ => rfl, hr, by rw [hnot hl, List.getLast?_concat], rfl, ?_, ?_⟩
  · rw [hfc]
    exact congrArg some h2
  · show fcAt w c.mixing 300 c.nSamplesInit 0 1 1 ≠ 4
    rw [h1]
    norm_num

/-- `run` and `precondition` cannot create initial force constants. -/
theorem C67_no_initial_violation (c : Config) (w : World V P) (temp : ℝ) (b : Bool) (n m : ℕ) (tol : ℝ)
    (st : State V P) (h : st.fc2 = none) :
    run c w temp b st = .error .attributeError ∧ precondition c w temp n m tol st = .error .attributeError := by
  constructor
  · rw [run, h]
  · rw [precondition, h]

/-! ## Several temperatures -/

/-- **C67.**  Running a list of temperatures saves one result per temperature, in the order of the list.  Every
saved log has only entries of its own temperature, and a last entry that says whether the run converged; the run of
a temperature starts from the force constants saved for the temperature before it. -/
theorem C67_temperatures (c : Config) (w : World V P) (ts : List ℝ) : ∀ st : State V P, st.fc2.isSome →
    ∃ saved st', runTarget c w ts st = .ok (saved, st') ∧ saved.map Saved.temp = ts ∧
      (∀ s ∈ saved, (∀ d ∈ s.log, d.temp = s.temp) ∧ s.fc2.isSome ∧
        ∃ d, s.log.getLast? = some d ∧ d.converge.isSome) ∧
      ∀ i (hi : i < saved.length), ∃ b a : State V P, run c w saved[i].temp true b = .ok a ∧
        b.fc2 = (if i = 0 then st.fc2 else (saved[i - 1]?).bind Saved.fc2) ∧ saved[i].fc2 = a.fc2 ∧
        saved[i].log = a.log := by
  induction ts with
  | nil =>
    intro st _
    exact ⟨[], st, rfl, rfl, by simp, by simp⟩
  | cons t ts ih =>
    intro st hs
    obtain ⟨fc0, h0⟩ := Option.isSome_iff_exists.1 hs
    obtain ⟨N, st1, hr, -, -, -, -, hf, hconv, hnot⟩ := C67_run c w t true st fc0 h0
    obtain ⟨saved, st', hr', hmap, hall, hch⟩ := ih st1 (by rw [hf]; rfl)
    have hok : runTarget c w (t :: ts) st = .ok (⟨t, st1.log, st1.fc2⟩ :: saved, st') := by
      simp only [runTarget, bind, Except.bind, hr, hr']
      rfl
    refine ⟨_, st', hok, by rw [List.map_cons, hmap], ?_, ?_⟩
    · intro s hsm
      rcases List.mem_cons.1 hsm with rfl | hsm
      · by_cases hl : (scoreAt w c.mixing t c.nSamplesInit st.calls fc0 (N - 1)).lt c.tol
        · refine ⟨fun d hd => ?_, by rw [hf]; rfl, _, by rw [hconv hl, List.getLast?_concat], rfl⟩
          rw [hconv hl] at hd
          simp only [if_true, List.nil_append, List.mem_append, List.mem_map, List.mem_singleton] at hd
          rcases hd with ⟨k, -, rfl⟩ | rfl <;> rfl
        · refine ⟨fun d hd => ?_, by rw [hf]; rfl, _, by rw [hnot hl, List.getLast?_concat], rfl⟩
          rw [hnot hl] at hd
          simp only [if_true, List.nil_append, List.mem_append, List.mem_map, List.mem_singleton] at hd
          rcases hd with ⟨k, -, rfl⟩ | rfl <;> rfl
      · exact hall s hsm
    · intro i hi
      cases i with
      | zero => exact ⟨st, st1, hr, rfl, rfl, rfl⟩
      | succ j =>
        obtain ⟨b, a, h1, h2, h3, h4⟩ := hch j (by simpa using hi)
        refine ⟨b, a, h1, ?_, h3, h4⟩
        rw [if_neg (by omega), h2]
        cases j with
        | zero => rfl
        | succ j => rfl

/-! ## Preconditioning -/

theorem precLoop_spec (c : Config) (w : World V P) (temp : ℝ) (nSamples maxIter : ℕ) (tol : ℝ) (m : ℕ) :
    ∀ (n : ℕ) (delta : Score) (fc2 : V) (st : State V P), maxIter + 1 - n = m → st.fc2 = some fc2 →
    ∃ new : List (Data P), (precLoop c w temp nSamples maxIter tol n delta fc2 st).log = st.log ++ new ∧
      (precLoop c w temp nSamples maxIter tol n delta fc2 st).calls = st.calls + new.length ∧
      new.length ≤ maxIter + 1 - n ∧ (precLoop c w temp nSamples maxIter tol n delta fc2 st).fc2.isSome ∧
      (n ≤ maxIter → delta.gt tol → 1 ≤ new.length) ∧ ∀ d ∈ new, d.temp = temp ∧ d.delta.isSome := by
  induction m with
  | zero =>
    intro n delta fc2 st hm h0
    rw [precLoop, if_neg (by omega)]
    exact ⟨[], by simp, rfl, by simp, by rw [h0]; rfl, fun h => absurd h (by omega), by simp⟩
  | succ m ih =>
    intro n delta fc2 st hm h0
    by_cases h : n ≤ maxIter ∧ delta.gt tol
    · rw [precLoop, if_pos h]
      obtain ⟨new, h1, h2, h3, h4, -, h6⟩ := ih (n + 1) (lastDelta (singleIter c w temp nSamples fc2 st))
        ((singleIter c w temp nSamples fc2 st).fc2.getD fc2) (singleIter c w temp nSamples fc2 st) (by omega) rfl
      refine ⟨⟨temp, (w.step st.calls temp nSamples fc2).1, some (convergenceScore
        (c.mixing • (w.step st.calls temp nSamples fc2).2 + (1 - c.mixing) • fc2)
        (w.step st.calls temp nSamples fc2).2), none⟩ :: new, ?_, ?_, ?_, h4, ?_, ?_⟩
      · rw [h1]
        simp [singleIter]
      · rw [h2]
        simp only [singleIter, List.length_cons]
        omega
      · simp only [List.length_cons]
        omega
      · intro _ _
        simp
      · intro d hd
        rcases List.mem_cons.1 hd with rfl | hd
        · exact ⟨rfl, rfl⟩
        · exact h6 d hd
    · rw [precLoop, if_neg h]
      exact ⟨[], by simp, rfl, by simp, by rw [h0]; rfl, fun h1 h2 => absurd ⟨h1, h2⟩ h, by simp⟩

theorem runPrecLoop_spec (c : Config) (w : World V P) (temp : ℝ) (nSamples : ℕ) (ht : c.tol < 10 ^ 10) (m : ℕ) :
    ∀ (n : ℕ) (delta : Score) (st : State V P), 20 - n = m → st.fc2.isSome →
    ∃ (new : List (Data P)) (st' : State V P), runPrecLoop c w temp nSamples n delta st = .ok st' ∧
      st'.log = st.log ++ new ∧ st'.calls = st.calls + new.length ∧ new.length ≤ 5 * (20 - n) ∧ st'.fc2.isSome ∧
      (delta.gt (c.tol * 5) → n < 20 → ¬ (lastDelta st').gt (c.tol * 5) ∨ 20 - n ≤ new.length) ∧
      (delta.gt (c.tol * 5) → n < 20 → 1 ≤ new.length) ∧ ∀ d ∈ new, d.temp = temp ∧ d.delta.isSome := by
  induction m with
  | zero =>
    intro n delta st hm h0
    rw [runPrecLoop, if_neg (by omega)]
    exact ⟨[], st, rfl, by simp, rfl, by simp, h0, fun _ h => absurd h (by omega), fun _ h => absurd h (by omega), by simp⟩
  | succ m ih =>
    intro n delta st hm h0
    by_cases h : delta.gt (c.tol * 5) ∧ n < 20
    · rw [runPrecLoop, if_pos h]
      obtain ⟨fc2, hf⟩ := Option.isSome_iff_exists.1 h0
      obtain ⟨new, h1, h2, h3, h4, h5, h6⟩ := precLoop_spec c w temp (nSamples * n) 5 c.tol _ 1 (.val (10 ^ 10)) fc2 st
        rfl hf
      set st1 := precLoop c w temp (nSamples * n) 5 c.tol 1 (.val (10 ^ 10)) fc2 st with hst1
      have hp : precondition c w temp (nSamples * n) 5 c.tol st = .ok st1 := by
        rw [precondition, hf]
      obtain ⟨new', st', h1', h2', h3', h4', h5', h6', -, h7'⟩ := ih (n + 1) (lastDelta st1) st1 (by omega) h4
      have h5 := h5 (by omega) ht
      refine ⟨new ++ new', st', ?_, by rw [h2', h1, List.append_assoc], by rw [h3', h2, List.length_append]; omega, ?_, h5',
        fun _ _ => ?_, fun _ _ => by rw [List.length_append]; omega, ?_⟩
      · simp only [bind, Except.bind, hp]
        exact h1'
      · rw [List.length_append]
        omega
      · rw [List.length_append]
        by_cases hg : (lastDelta st1).gt (c.tol * 5)
        · by_cases hn : n + 1 < 20
          · rcases h6' hg hn with h | h
            · exact Or.inl h
            · right
              omega
          · right
            omega
        · left
          rw [runPrecLoop, if_neg (fun h => hg h.1)] at h1'
          injection h1' with h1'
          rw [← h1']
          exact hg
      · intro d hd
        rcases List.mem_append.1 hd with hd | hd
        · exact h6 d hd
        · exact h7' d hd
    · rw [runPrecLoop, if_neg h]
      exact ⟨[], st, rfl, by simp, rfl, by simp, h0, fun h1 h2 => absurd ⟨h1, h2⟩ h, fun h1 h2 => absurd ⟨h1, h2⟩ h, by simp⟩

/-- **C67.**  Preconditioning ends after at most 95 steps, all at the first temperature.  It leaves force constants
to start from; unless it made at least nineteen steps, its last score is not above five times the tolerance. -/
theorem C67_precondition (c : Config) (w : World V P) (temp : ℝ) (st : State V P) (h0 : st.fc2.isSome)
    (ht : c.tol < 1 / 5) :
    ∃ (new : List (Data P)) (st' : State V P), runPrecondition c w temp st = .ok st' ∧ st'.log = st.log ++ new ∧
      1 ≤ new.length ∧ new.length ≤ 95 ∧ (∀ d ∈ new, d.temp = temp) ∧ st'.fc2.isSome ∧
      (19 ≤ new.length ∨ ∃ d s, st'.log.getLast? = some d ∧ d.delta = some s ∧ ¬ s.gt (5 * c.tol)) := by
  obtain ⟨new, st', h1, h2, h3, h4, h5, h6, hpos, h7⟩ := runPrecLoop_spec c w temp (max (min (c.nSamplesInit / 50) 100) 5)
    (by linarith) _ 1 (.val 1) st rfl h0
  have htol : (Score.val 1).gt (c.tol * 5) := show c.tol * 5 < 1 by linarith
  have hpos := hpos htol (by norm_num)
  refine ⟨new, st', h1, h2, hpos, h4, fun d hd => (h7 d hd).1, h5, ?_⟩
  rcases h6 htol (by norm_num) with h | h
  · right
    have hne : new ≠ [] := by
      rintro rfl
      simp at hpos
    have hl : st'.log.getLast? = some (new.getLast hne) := by
      rw [h2, List.getLast?_append, List.getLast?_eq_some_getLast hne]
      rfl
    obtain ⟨s, hs⟩ := Option.isSome_iff_exists.1 (h7 _ (List.getLast_mem hne)).2
    refine ⟨_, s, hl, hs, ?_⟩
    unfold lastDelta at h
    rw [hl, Option.bind_some, hs, mul_comm] at h
    exact h
  · exact Or.inl h

/-! ## Examples -/

/-- A world in which the fitted force constants approach four: the mixed ones converge to four. -/
noncomputable def exWorld : World ℝ ℝ := ⟨fun _ _ _ x => (x, x / 2 + 2)⟩

noncomputable def exConfig : Config := ⟨1 / 2, 1 / 10, 50, 100, 300⟩

/-- The hypotheses of `C67_run`, `C67_converged_partial` and `C67_precondition` are met by a run that converges
after the second step: 4 - 4/2^k approaches four. -/
example : ∃ st' d, run exConfig exWorld 300 true ⟨some 3, [], 0⟩ = .ok st' ∧ st'.log.length = 3 ∧
    st'.log.getLast? = some d ∧ d.converge = some true ∧ 0 ≤ exConfig.mixing ∧ exConfig.mixing ≤ 1 ∧
    exConfig.tol < 1 / 5 := by
  have h1 : fcAt exWorld exConfig.mixing 300 exConfig.nSamplesInit 0 3 1 = 13 / 4 := by
    show (1 / 2 : ℝ) * (3 / 2 + 2) + (1 - 1 / 2) * 3 = 13 / 4
    norm_num
  have hf : fittedAt exWorld exConfig.mixing 300 exConfig.nSamplesInit 0 3 1 = 29 / 8 := by
    show fcAt exWorld exConfig.mixing 300 exConfig.nSamplesInit 0 3 1 / 2 + 2 = 29 / 8
    rw [h1]
    norm_num
  have h2 : fcAt exWorld exConfig.mixing 300 exConfig.nSamplesInit 0 3 2 = 55 / 16 := by
    show (1 / 2 : ℝ) * fittedAt exWorld exConfig.mixing 300 exConfig.nSamplesInit 0 3 1 + (1 - 1 / 2) *
      fcAt exWorld exConfig.mixing 300 exConfig.nSamplesInit 0 3 1 = 55 / 16
    rw [hf, h1]
    norm_num
  have hs : scoreAt exWorld exConfig.mixing 300 exConfig.nSamplesInit 0 3 1 = .val (3 / 55) := by
    unfold scoreAt
    rw [hf, h2, Score.div, if_neg (by norm_num)]
    norm_num
  obtain ⟨N, st', hr, hN1, -, h4, -, -, hconv, -⟩ := C67_run exConfig exWorld 300 true ⟨some 3, [], 0⟩ 3 rfl
  have hN : N = 2 := by
    by_contra hne
    have := h4 2 (le_refl 2) (by omega)
    rw [show (2 - 1 : ℕ) = 1 from rfl, hs] at this
    have h : (1 / 10 : ℝ) < 3 / 55 := this
    norm_num at h
  subst hN
  have hl : (scoreAt exWorld exConfig.mixing 300 exConfig.nSamplesInit 0 3 (2 - 1)).lt exConfig.tol := by
    rw [show (2 - 1 : ℕ) = 1 from rfl, hs]
    show (3 / 55 : ℝ) < 1 / 10
    norm_num
  refine ⟨st', _, hr, by rw [hconv hl]; simp, by rw [hconv hl, List.getLast?_concat], rfl, ?_, ?_, ?_⟩ <;>
    norm_num [exConfig]

end Verif.Sscha
