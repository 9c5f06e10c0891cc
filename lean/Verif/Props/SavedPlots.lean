import Verif.Model.SavedPlots
import Verif.Props.Relaxation
import Verif.Proofs.Maps
import Mathlib.Data.List.Sort
import Mathlib.Tactic.FieldSimp
import Mathlib.Tactic.Linarith

/-! # C92: the plots of a saved run -/

set_option linter.unusedSectionVars false
set_option linter.unusedVariables false

namespace Mrx.Props
open Mrx Real

/-! ## The domain -/

/-- **C92** a tokamak run with major radius one is plotted on the domain it was computed on. -/
theorem C92_domain (c : DomainConfig) (h : c.boundaryType = "tokamak") (hR : c.R0 = 1) : solveDomain c = .ok (plotDomain c) := by
  unfold solveDomain plotDomain
  rw [if_pos h, hR]
  norm_num

theorem cerfon_outer (ε κ α R0 : ℝ) (hε : 0 < ε) : cerfonMap ε κ α R0 ![1, 0, 0] 0 = R0 + ε := by
  have hA : cerfonA ε κ α 0 = ε := by
    unfold cerfonA cerfonXt cerfonYt
    simp [sqrt_sq hε.le]
  have hS : cerfonS κ α 0 = 0 := by
    unfold cerfonS cerfonS0 arctan2
    rw [if_neg (by norm_num)]
    simp only [mul_zero, sin_zero, add_zero, cos_zero]
    exact Complex.arg_ofReal_of_nonneg (x := 1) zero_le_one
  change (R0 + cerfonA ε κ α 0 * 1 * cos (cerfonS κ α 0)) * cos (2 * π * 0) = _
  rw [hA, hS]
  simp

/-- **C92 (finding)** a run in any of the two other domains (among them the default, the rotating ellipse) is plotted on the wrong domain:
the map used for plotting always is that of the tokamak. -/
theorem C92_wrong_domain (c : DomainConfig) (hε : 0 < c.eps) (hR : c.R0 = 1) :
    (c.boundaryType = "rotating_ellipse" → 0 < c.nfp → c.kappa ≠ 1 → ∃ F, solveDomain c = .ok F ∧ F ![1, 0, 0] ≠ plotDomain c ![1, 0, 0])
      ∧ (c.boundaryType = "helix" → ∃ F, solveDomain c = .ok F ∧ F ![0, 0, 0] ≠ plotDomain c ![0, 0, 0]) := by
  constructor
  · intro hb hn hκ
    refine ⟨rotatingEllipseF c.eps c.kappa c.nfp, ?_, ?_⟩
    · unfold solveDomain rotatingEllipseMap
      rw [hb, if_neg (by decide), if_neg (by decide), if_pos rfl, if_neg (by omega), if_neg (by linarith)]
    · intro h
      have h0 := congrFun h 0
      unfold plotDomain at h0
      rw [cerfon_outer _ _ _ _ hε, hR] at h0
      have e : rotatingEllipseF c.eps c.kappa c.nfp ![1, 0, 0] 0 = 1 + c.eps * (2 - c.kappa) := by
        have hz : (if c.nfp > 0 then (0 : ℝ) / c.nfp else 0) = 0 := by split_ifs <;> simp
        change (1 + c.eps * ellipseNu c.kappa c.nfp (if c.nfp > 0 then (0 : ℝ) / c.nfp else 0) * 1 * cos (2 * π * 0))
          * cos (2 * π * (if c.nfp > 0 then (0 : ℝ) / c.nfp else 0)) = _
        rw [hz]
        unfold ellipseNu
        simp only [mul_zero, zero_mul, cos_zero, mul_one]
        ring
      rw [e] at h0
      have : c.eps * (1 - c.kappa) = 0 := by linarith
      rcases mul_eq_zero.1 this with h1 | h1
      · linarith
      · exact hκ (by linarith)
  · intro hb
    refine ⟨helicalMap c.eps c.hHelix c.kappa (arcsin c.delta) c.nfp, ?_, ?_⟩
    · unfold solveDomain
      rw [hb, if_neg (by decide), if_pos rfl]
    · intro h
      have h0 := congrFun h 0
      have e1 : plotDomain c ![0, 0, 0] 0 = 1 := by
        unfold plotDomain
        change (c.R0 + cerfonA c.eps c.kappa (arcsin c.delta) 0 * 0 * cos (cerfonS c.kappa (arcsin c.delta) 0)) * cos (2 * π * 0) = _
        rw [hR]; simp
      have e2 : helicalMap c.eps c.hHelix c.kappa (arcsin c.delta) c.nfp ![0, 0, 0] 0 = 0 := by
        unfold helicalMap helixX
        simp
      rw [e1, e2] at h0
      exact zero_ne_one h0

/-- **C92 (finding)** nor does a tokamak run with another major radius: the run ignores `R_0`, the plots use it. -/
theorem C92_major_radius (c : DomainConfig) (h : c.boundaryType = "tokamak") (hε : 0 < c.eps) (hR : c.R0 ≠ 1) :
    ∃ F, solveDomain c = .ok F ∧ F ![1, 0, 0] ≠ plotDomain c ![1, 0, 0] := by
  refine ⟨_, by unfold solveDomain; rw [if_pos h], ?_⟩
  intro h0
  have h1 := congrFun h0 0
  unfold plotDomain at h1
  rw [cerfon_outer _ _ _ _ hε, cerfon_outer _ _ _ _ hε] at h1
  exact hR (by norm_num at h1; linarith)

/-! ## The file names -/

section Labels
variable {V H : Type} (cfg : RelaxConfig) (env : RelaxEnv V H) (start : ℝ)

theorem sorted_multiples {s : Nat} (hs : 1 ≤ s) : ∀ (l : List Nat), l.Pairwise (· < ·) → (∀ i ∈ l, s ∣ i) → ∀ j (hj : j < l.length), j * s ≤ l[j] := by
  intro l hl hd j
  induction j with
  | zero => intro _; simp
  | succ j ih =>
    intro hj
    have h1 := ih (by omega)
    have h2 : l[j] < l[j + 1] := List.pairwise_iff_getElem.1 hl j (j + 1) (by omega) hj (by omega)
    obtain ⟨a, ha⟩ := hd l[j] (List.getElem_mem _)
    obtain ⟨b, hb⟩ := hd l[j + 1] (List.getElem_mem _)
    rw [ha] at h1 h2
    rw [hb] at h2 ⊢
    have : a < b := Nat.lt_of_mul_lt_mul_left h2
    have hja : j ≤ a := by
      rw [Nat.mul_comm] at h1
      exact Nat.le_of_mul_le_mul_left h1 hs
    rw [Nat.mul_comm]
    exact Nat.mul_le_mul_left s (by omega)

/-- **C92** the name of the plot of a saved field never claims a later iteration than the one the field belongs to (`maxit` a multiple of
`save_every`), -/
theorem C92_label_le (s : State V H) (hs : 1 ≤ cfg.saveEvery) (hm : cfg.saveEvery ∣ cfg.maxit) (k j : Nat)
    (hj : j < (relaxAfter cfg env start s (emptyTrace V) k).trace.iterations.length) :
    plotLabel cfg.saveEvery j ≤ (relaxAfter cfg env start s (emptyTrace V) k).trace.iterations[j] := by
  obtain ⟨h1, -, h3⟩ := C50_schedule cfg env start s (emptyTrace V) rfl k
  refine sorted_multiples hs _ h1 (fun i hi => ?_) j hj
  rcases (h3 i).1 hi with rfl | ⟨-, -, h4 | h4, -⟩
  · exact dvd_zero _
  · exact Nat.dvd_of_mod_eq_zero h4
  · rw [h4]; exact hm

/-- **C92** and it is the right one for every field if no iteration due to be saved was rejected. -/
theorem C92_label (s : State V H) (hs : 1 ≤ cfg.saveEvery) (hm : cfg.saveEvery ∣ cfg.maxit) (k j : Nat)
    (hacc : ∀ i, 1 ≤ i → i * cfg.saveEvery ≤ k → Accepted cfg env start s (emptyTrace V) (i * cfg.saveEvery))
    (hj : j < (relaxAfter cfg env start s (emptyTrace V) k).trace.iterations.length) :
    (relaxAfter cfg env start s (emptyTrace V) k).trace.iterations[j] = plotLabel cfg.saveEvery j := by
  obtain ⟨h1, -, h3⟩ := C50_schedule cfg env start s (emptyTrace V) rfl k
  have hmul : (relaxAfter cfg env start s (emptyTrace V) k).trace.iterations = (List.range (k / cfg.saveEvery + 1)).map (· * cfg.saveEvery) := by
    have hperm : (relaxAfter cfg env start s (emptyTrace V) k).trace.iterations.Perm ((List.range (k / cfg.saveEvery + 1)).map (· * cfg.saveEvery)) := by
      refine (List.perm_ext_iff_of_nodup (h1.imp fun h => Nat.ne_of_lt h) ?_).2 ?_
      · exact List.Nodup.map (fun a b h => Nat.eq_of_mul_eq_mul_right hs h) List.nodup_range
      · intro a
        rw [h3 a, List.mem_map]
        constructor
        · rintro (rfl | ⟨ha, hak, hd, -⟩)
          · exact ⟨0, by simp, by simp⟩
          · have hdvd : cfg.saveEvery ∣ a := by
              rcases hd with hd | hd
              · exact Nat.dvd_of_mod_eq_zero hd
              · rw [hd]; exact hm
            obtain ⟨b, rfl⟩ := hdvd
            refine ⟨b, ?_, Nat.mul_comm _ _⟩
            rw [List.mem_range]
            have := Nat.div_le_div_right (c := cfg.saveEvery) hak
            rw [Nat.mul_div_cancel_left _ hs] at this
            omega
        · rintro ⟨b, hb, rfl⟩
          rw [List.mem_range] at hb
          by_cases h0 : b = 0
          · left; simp [h0]
          · right
            have hle : b * cfg.saveEvery ≤ k := by
              have := Nat.mul_le_mul_right cfg.saveEvery (show b ≤ k / cfg.saveEvery by omega)
              exact this.trans (Nat.div_mul_le_self _ _)
            have hb1 : 1 ≤ b := by omega
            exact ⟨Nat.one_le_iff_ne_zero.2 (Nat.mul_ne_zero h0 (by omega)), hle, Or.inl (Nat.mul_mod_left _ _), hacc b hb1 hle⟩
    refine hperm.eq_of_pairwise' (r := (· < ·)) h1 ?_
    rw [List.pairwise_map]
    exact List.pairwise_lt_range.imp fun h => Nat.mul_lt_mul_of_pos_right h hs
  simp only [hmul, List.getElem_map, List.getElem_range, plotLabel]

/-- **C92 (finding)** if an iteration due to be saved was rejected and a later field was saved, some plot carries the wrong iteration number. -/
theorem C92_label_shifted (s : State V H) (hs : 1 ≤ cfg.saveEvery) (k i m : Nat) (hi : 1 ≤ i)
    (hrej : ¬ Accepted cfg env start s (emptyTrace V) (i * cfg.saveEvery))
    (hm : m ∈ (relaxAfter cfg env start s (emptyTrace V) k).trace.iterations) (him : i * cfg.saveEvery < m) :
    ∃ j, ∃ hj : j < (relaxAfter cfg env start s (emptyTrace V) k).trace.iterations.length,
      (relaxAfter cfg env start s (emptyTrace V) k).trace.iterations[j] ≠ plotLabel cfg.saveEvery j := by
  obtain ⟨h1, -, h3⟩ := C50_schedule cfg env start s (emptyTrace V) rfl k
  by_contra hcon
  push Not at hcon
  obtain ⟨j, hj, hjm⟩ := List.getElem_of_mem hm
  have hjl := hcon j hj
  rw [hjm] at hjl
  have hij : i < j := by
    unfold plotLabel at hjl
    rw [hjl] at him
    exact Nat.lt_of_mul_lt_mul_right him
  have hil := hcon i (by omega)
  have hmem : i * cfg.saveEvery ∈ (relaxAfter cfg env start s (emptyTrace V) k).trace.iterations := by
    have := List.getElem_mem (l := (relaxAfter cfg env start s (emptyTrace V) k).trace.iterations) (show i < _ by omega)
    rw [hil] at this
    exact this
  rcases (h3 _).1 hmem with h | ⟨-, -, -, hacc⟩
  · exact absurd h (Nat.mul_ne_zero (by omega) (by omega))
  · exact hrej hacc

end Labels

/-! ## The Poincaré plot -/

/-- **C92 (finding)** the Poincaré section is drawn neither in GitHub Actions nor elsewhere, with or without a final field. -/
theorem C92_poincare_never_drawn (hasB inActions : Bool) : drawsPoincare hasB inActions = false := by
  cases hasB <;> cases inActions <;> rfl

theorem seedRows_get (n i : Nat) : (seedRows n)[i]? = if i < n then some (if n = 1 then 0.05 else 0.05 + (i : ℝ) * ((0.95 - 0.05) / (n - 1 : ℝ)))
    else if i < 3 * n then some 0 else none := by
  unfold seedRows linspace
  by_cases h1 : i < n
  · rw [if_pos h1, List.append_assoc, List.getElem?_append_left (by simpa using h1)]
    simp [h1]
  · rw [if_neg h1, List.append_assoc, List.getElem?_append_right (by simpa using h1)]
    simp only [List.length_map, List.length_range]
    by_cases h2 : i < 3 * n
    · rw [if_pos h2, ← List.replicate_add, List.getElem?_replicate, if_pos (by omega)]
    · rw [if_neg h2, ← List.replicate_add, List.getElem?_replicate, if_neg (by omega)]

/-- **C92 (finding)** the initial points prepared for it are not the intended points `(r_i, 0, 0)` on a radial line: seed number `q = b n_loop + l`
is `(r_{3q}, r_{3q+1}, r_{3q+2})`, three consecutive radii, for the first third of the seeds, and the origin for the remaining ones. -/
theorem C92_seeds (nBatch nLoop b l : Nat) (hb : b < nBatch) (hl : l < nLoop) (hn : 2 ≤ nLoop * nBatch) :
    (3 * (b * nLoop + l) + 2 < nLoop * nBatch → ∀ c : Fin 3, seed nBatch nLoop b l c
      = some (0.05 + ((3 * (b * nLoop + l) + c.1 : Nat) : ℝ) * ((0.95 - 0.05) / ((nLoop * nBatch : Nat) - 1 : ℝ))))
      ∧ (nLoop * nBatch ≤ 3 * (b * nLoop + l) → ∀ c : Fin 3, seed nBatch nLoop b l c = some 0) := by
  have hq : b * nLoop + l < nLoop * nBatch := by
    calc b * nLoop + l < b * nLoop + nLoop := by omega
      _ = nLoop * (b + 1) := by ring
      _ ≤ nLoop * nBatch := Nat.mul_le_mul_left _ hb
  constructor
  · intro h c
    have hc := c.2
    unfold seed reshape3
    rw [seedRows_get, if_pos (by omega), if_neg (by omega), Nat.mul_comm (b * nLoop + l) 3]
  · intro h c
    have hc := c.2
    unfold seed reshape3
    rw [seedRows_get, if_neg (by omega), if_pos (by omega)]

/-- With the constants of the code (`n_loop = n_batch = 5`): the first seed is not on the line `θ = ζ = 0`, and 16 of the 25 seeds coincide. -/
theorem C92_seeds_of_the_code : (∃ t : ℝ, 0 < t ∧ seed 5 5 0 0 1 = some t)
    ∧ ∀ b l, b < 5 → l < 5 → 9 ≤ b * 5 + l → ∀ c, seed 5 5 b l c = some 0 := by
  constructor
  · exact ⟨_, by norm_num, (C92_seeds 5 5 0 0 (by norm_num) (by norm_num) (by norm_num)).1 (by norm_num) 1⟩
  · intro b l hb hl h c
    exact (C92_seeds 5 5 b l hb hl (by norm_num)).2 (by omega) c

/-- A run with `save_every = 1` whose first iteration is rejected: the field of iteration 2 is plotted under the name of iteration 1. -/
example : ∃ j, ∃ hj : j < (relaxAfter (demoCfg 1 1 (-1)) (demoEnv 1) 0 demoState (emptyTrace _) 2).trace.iterations.length,
    (relaxAfter (demoCfg 1 1 (-1)) (demoEnv 1) 0 demoState (emptyTrace _) 2).trace.iterations[j] ≠ plotLabel 1 j := by
  obtain ⟨s0, b0, d0⟩ := C51_not_applied_once 1 le_rfl 0
  obtain ⟨s1, b1, d1⟩ := C51_not_applied_once 1 le_rfl 1
  refine C92_label_shifted (demoCfg 1 1 (-1)) (demoEnv 1) 0 demoState le_rfl 2 1 2 le_rfl ?_ ?_ (by simp [demoCfg])
  · rintro ⟨-, x, hx, -⟩
    change ((demoEnv 1).step (demoCfg 1 1 (-1)) (relaxAfter (demoCfg 1 1 (-1)) (demoEnv 1) 0 demoState (emptyTrace _) 0).state).picardResiduum = .fin x at hx
    generalize relaxAfter (demoCfg 1 1 (-1)) (demoEnv 1) 0 demoState (emptyTrace _) 0 = l at hx b0 d0
    rw [demo_step] at hx
    simp [midpointResiduum, demoEnv, b0, d0] at hx
  · refine ((C50_schedule (demoCfg 1 1 (-1)) (demoEnv 1) 0 demoState (emptyTrace _) rfl 2).2.2 2).2 (Or.inr ⟨by norm_num, le_rfl, Or.inl (by simp [demoCfg]), s1, 0, ?_, by norm_num [demoCfg]⟩)
    change ((demoEnv 1).step (demoCfg 1 1 (-1)) (relaxAfter (demoCfg 1 1 (-1)) (demoEnv 1) 0 demoState (emptyTrace _) 1).state).picardResiduum = .fin 0
    generalize relaxAfter (demoCfg 1 1 (-1)) (demoEnv 1) 0 demoState (emptyTrace _) 1 = l at b1 d1
    rw [demo_step]
    simp [midpointResiduum, demoEnv, b1, d1]

/-- The default configuration is affected. -/
example : ∃ F, solveDomain ⟨"rotating_ellipse", 0.2, 1.7, 0, 3, 0, 1⟩ = .ok F
    ∧ F ![1, 0, 0] ≠ plotDomain ⟨"rotating_ellipse", 0.2, 1.7, 0, 3, 0, 1⟩ ![1, 0, 0] :=
  (C92_wrong_domain ⟨"rotating_ellipse", 0.2, 1.7, 0, 3, 0, 1⟩ (by norm_num) rfl).1 rfl (by decide) (by norm_num)

/-- Cases of C92: the tokamak with unit and another major radius, and the labels of a run. -/
example := C92_domain ⟨"tokamak", 0.2, 1.7, 0.3, 3, 0, 1⟩ rfl rfl
example := C92_major_radius ⟨"tokamak", 0.2, 1.7, 0.3, 3, 0, 2⟩ rfl (by norm_num) (by norm_num)
example (k j : Nat) := C92_label_le (demoCfg 1 1 (-1)) (demoEnv 1) 0 demoState le_rfl (by simp [demoCfg]) k j
example := C92_seeds 3 4 1 2 (by norm_num) (by norm_num) (by norm_num)

end Mrx.Props
