import Verif.Proofs.AllSizes
import Verif.Proofs.Cohomology2
import Mathlib.LinearAlgebra.Dimension.Constructions
import Mathlib.LinearAlgebra.Dimension.RankNullity
import Mathlib.Analysis.SpecialFunctions.Trigonometric.Basic

/-!
# Radial complexes for all sizes

The one-dimensional complexes that are left of the discrete de Rham complex when one divides by the two angles, and the dimensions of
their kernels and cokernels.
-/

set_option linter.unusedSectionVars false
set_option linter.unusedVariables false

namespace Mrx
open Finset Jax Spec Matrix Quad Props Module

/-- A vector as a function on all numbers. -/
def exf {n : Nat} (f : Fin n → ℝ) (i : Nat) : ℝ := if h : i < n then f ⟨i, h⟩ else 0

theorem exf_add {n : Nat} (f g : Fin n → ℝ) (i : Nat) : exf (f + g) i = exf f i + exf g i := by
  unfold exf; split_ifs <;> simp
theorem exf_smul {n : Nat} (a : ℝ) (f : Fin n → ℝ) (i : Nat) : exf (a • f) i = a * exf f i := by
  unfold exf; split_ifs <;> simp
theorem exf_zero {n : Nat} (i : Nat) : exf (0 : Fin n → ℝ) i = 0 := by
  unfold exf; split_ifs <;> simp
theorem exf_of {n : Nat} (f : Nat → ℝ) {i : Nat} (h : i < n) : exf (fun k : Fin n => f k) i = f i := by
  unfold exf; rw [dif_pos h]
theorem exf_ext {n : Nat} {f g : Fin n → ℝ} (h : ∀ i < n, exf f i = exf g i) : f = g := by
  funext i
  have := h i i.2
  unfold exf at this
  rwa [dif_pos i.2, dif_pos i.2] at this

theorem codeRad_add (N M : Nat) (f g : Nat → ℝ) (i : Nat) : codeRad N M (fun i => f i + g i) i = codeRad N M f i + codeRad N M g i := by
  unfold codeRad; split_ifs <;> ring
theorem codeRad_smul (N M : Nat) (a : ℝ) (f : Nat → ℝ) (i : Nat) : codeRad N M (fun i => a * f i) i = a * codeRad N M f i := by
  unfold codeRad; split_ifs <;> ring
theorem codeRad_sum (N M : Nat) {ι : Type} (s : Finset ι) (f : ι → Nat → ℝ) (i : Nat) :
    codeRad N M (fun i => ∑ k ∈ s, f k i) i = ∑ k ∈ s, codeRad N M (f k) i := by
  classical
  induction s using Finset.induction_on with
  | empty => simp [codeRad]
  | insert a s ha ih => simp only [sum_insert ha]; rw [codeRad_add, ih]
theorem codeRad_congr {N M : Nat} {f g : Nat → ℝ} {i : Nat} (hi : i < N - 1) (h : ∀ i < N, f i = g i) : codeRad N M f i = codeRad N M g i := by
  unfold codeRad; rw [h (i + 1) (by omega), h i (by omega), h (N - 1) (by omega)]

/-- The radial operator. -/
noncomputable def Rad (N M : Nat) : (Fin N → ℝ) →ₗ[ℝ] (Fin (N - 1) → ℝ) where
  toFun f := fun i => codeRad N M (exf f) i
  map_add' f g := by
    funext i
    rw [Pi.add_apply, ← codeRad_add]
    exact codeRad_congr i.2 fun k _ => exf_add f g k
  map_smul' a f := by
    funext i
    rw [RingHom.id_apply, Pi.smul_apply, smul_eq_mul, ← codeRad_smul]
    exact codeRad_congr i.2 fun k _ => exf_smul a f k

theorem exf_Rad {N M : Nat} (f : Fin N → ℝ) {i : Nat} (hi : i < N - 1) : exf (Rad N M f) i = codeRad N M (exf f) i := by
  unfold exf; rw [dif_pos hi]; rfl

/-- Radial profiles of scalars that are constant on the angles. -/
def F0 (polar dir : Bool) (N : Nat) : Submodule ℝ (Fin N → ℝ) where
  carrier := {f | (polar = true → exf f 1 = exf f 0) ∧ (dir = true → exf f (N - 1) = 0) ∧ (polar = false → dir = true → exf f 0 = 0)}
  add_mem' := by
    rintro f g ⟨a, b, c⟩ ⟨a', b', c'⟩
    simp only [Set.mem_setOf_eq, exf_add]
    exact ⟨fun h => by rw [a h, a' h], fun h => by rw [b h, b' h, add_zero], fun h h' => by rw [c h h', c' h h', add_zero]⟩
  zero_mem' := by simp [exf_zero]
  smul_mem' := by
    rintro k f ⟨a, b, c⟩
    simp only [Set.mem_setOf_eq, exf_smul]
    exact ⟨fun h => by rw [a h], fun h => by rw [b h, mul_zero], fun h h' => by rw [c h h', mul_zero]⟩

/-- Radial profiles of poloidal circulations. -/
def F1 (polar dir : Bool) (N : Nat) : Submodule ℝ (Fin N → ℝ) where
  carrier := {f | (polar = true → exf f 0 = 0 ∧ exf f 1 = 0) ∧ (dir = true → exf f (N - 1) = 0) ∧ (polar = false → dir = true → exf f 0 = 0)}
  add_mem' := by
    rintro f g ⟨a, b, c⟩ ⟨a', b', c'⟩
    simp only [Set.mem_setOf_eq, exf_add]
    exact ⟨fun h => by rw [(a h).1, (a' h).1, (a h).2, (a' h).2]; simp, fun h => by rw [b h, b' h, add_zero],
      fun h h' => by rw [c h h', c' h h', add_zero]⟩
  zero_mem' := by simp [exf_zero]
  smul_mem' := by
    rintro k f ⟨a, b, c⟩
    simp only [Set.mem_setOf_eq, exf_smul]
    exact ⟨fun h => by rw [(a h).1, (a h).2]; simp, fun h => by rw [b h, mul_zero], fun h h' => by rw [c h h', mul_zero]⟩

/-- Radial profiles of radial components. -/
def G1 (polar : Bool) (N : Nat) : Submodule ℝ (Fin (N - 1) → ℝ) where
  carrier := {g | polar = true → exf g 0 = 0}
  add_mem' := by
    intro f g a a'
    simp only [Set.mem_setOf_eq, exf_add]
    exact fun h => by rw [a h, a' h, add_zero]
  zero_mem' := by simp [exf_zero]
  smul_mem' := by
    intro k f a
    simp only [Set.mem_setOf_eq, exf_smul]
    exact fun h => by rw [a h, mul_zero]

theorem mem_F0 {polar dir : Bool} {N : Nat} {f : Fin N → ℝ} : f ∈ F0 polar dir N ↔ (polar = true → exf f 1 = exf f 0) ∧
    (dir = true → exf f (N - 1) = 0) ∧ (polar = false → dir = true → exf f 0 = 0) := Iff.rfl
theorem mem_F1 {polar dir : Bool} {N : Nat} {f : Fin N → ℝ} : f ∈ F1 polar dir N ↔ (polar = true → exf f 0 = 0 ∧ exf f 1 = 0) ∧
    (dir = true → exf f (N - 1) = 0) ∧ (polar = false → dir = true → exf f 0 = 0) := Iff.rfl
theorem mem_G1 {polar : Bool} {N : Nat} {g : Fin (N - 1) → ℝ} : g ∈ G1 polar N ↔ (polar = true → exf g 0 = 0) := Iff.rfl

/-- Evaluation. -/
def evf (n i : Nat) : (Fin n → ℝ) →ₗ[ℝ] ℝ where
  toFun f := exf f i
  map_add' f g := exf_add f g i
  map_smul' a f := exf_smul a f i

theorem evf_apply {n i : Nat} (f : Fin n → ℝ) : evf n i f = exf f i := rfl

theorem finrank_ker_surj {n : Nat} {T : Type} [AddCommGroup T] [Module ℝ T] (S : Submodule ℝ (Fin n → ℝ)) (Λ : (Fin n → ℝ) →ₗ[ℝ] T)
    (h : ∀ f, f ∈ S ↔ Λ f = 0) (hs : ∀ t, ∃ f, Λ f = t) : finrank ℝ S + finrank ℝ T = n := by
  have e : S = LinearMap.ker Λ := by
    ext f; rw [h, LinearMap.mem_ker]
  have := LinearMap.finrank_range_add_finrank_ker Λ
  rw [LinearMap.range_eq_top.mpr hs, finrank_top, ← e] at this
  simp at this
  omega

/-- A profile from three values. -/
def three (a b c : ℝ) (N i : Nat) : ℝ := if i = 0 then a else if i = N - 1 then c else if i = 1 then b else 0

theorem finrank_F0 {polar dir : Bool} {N : Nat} (hN : 2 ≤ N) (hp : polar = true → 3 ≤ N) :
    finrank ℝ (F0 polar dir N) + (if dir = true then 2 else if polar = true then 1 else 0) = N := by
  rcases polar with _ | _ <;> rcases dir with _ | _ <;> simp only [Bool.false_eq_true, if_false, if_true]
  · have := finrank_ker_surj (F0 false false N) (0 : (Fin N → ℝ) →ₗ[ℝ] (Fin 0 → ℝ)) (fun f => by simp [mem_F0])
      (fun t => ⟨0, Subsingleton.elim _ _⟩)
    simpa using this
  · have := finrank_ker_surj (F0 false true N) ((evf N 0).prod (evf N (N - 1)))
      (fun f => by simp [mem_F0, evf_apply, Prod.ext_iff, and_comm])
      (fun t => ⟨fun i => three t.1 0 t.2 N i, by
        refine Prod.ext ?_ ?_
        · simp only [LinearMap.prod_apply, Function.prod, evf_apply]; rw [exf_of _ (by omega)]; simp [three]
        · simp only [LinearMap.prod_apply, Function.prod, evf_apply]; rw [exf_of _ (by omega)]; simp [three]; omega⟩)
    simpa using this
  · have hp := hp rfl
    have := finrank_ker_surj (F0 true false N) (evf N 1 - evf N 0)
      (fun f => by simp [mem_F0, evf_apply, sub_eq_zero])
      (fun t => ⟨fun i => three 0 t 0 N i, by
        simp only [LinearMap.sub_apply, evf_apply]; rw [exf_of _ (by omega), exf_of _ (by omega)]; simp [three]; omega⟩)
    simpa using this
  · have hp := hp rfl
    have := finrank_ker_surj (F0 true true N) ((evf N 1 - evf N 0).prod (evf N (N - 1)))
      (fun f => by simp [mem_F0, evf_apply, Prod.ext_iff, sub_eq_zero])
      (fun t => ⟨fun i => three 0 t.1 t.2 N i, by
        refine Prod.ext ?_ ?_
        · simp only [LinearMap.prod_apply, Function.prod, LinearMap.sub_apply, evf_apply]; rw [exf_of _ (by omega), exf_of _ (by omega)]
          simp [three]; omega
        · simp only [LinearMap.prod_apply, Function.prod, evf_apply]; rw [exf_of _ (by omega)]; simp [three]; omega⟩)
    simpa using this

theorem finrank_F1 {polar dir : Bool} {N : Nat} (hN : 2 ≤ N) (hp : polar = true → 3 ≤ N) :
    finrank ℝ (F1 polar dir N) + ((if polar = true then 2 else 0) + (if dir = true then (if polar = true then 1 else 2) else 0)) = N := by
  rcases polar with _ | _ <;> rcases dir with _ | _ <;> simp only [Bool.false_eq_true, if_false, if_true]
  · have := finrank_ker_surj (F1 false false N) (0 : (Fin N → ℝ) →ₗ[ℝ] (Fin 0 → ℝ)) (fun f => by simp [mem_F1])
      (fun t => ⟨0, Subsingleton.elim _ _⟩)
    simpa using this
  · have := finrank_ker_surj (F1 false true N) ((evf N 0).prod (evf N (N - 1)))
      (fun f => by simp [mem_F1, evf_apply, Prod.ext_iff, and_comm])
      (fun t => ⟨fun i => three t.1 0 t.2 N i, by
        refine Prod.ext ?_ ?_
        · simp only [LinearMap.prod_apply, Function.prod, evf_apply]; rw [exf_of _ (by omega)]; simp [three]
        · simp only [LinearMap.prod_apply, Function.prod, evf_apply]; rw [exf_of _ (by omega)]; simp [three]; omega⟩)
    simpa using this
  · have hp := hp rfl
    have := finrank_ker_surj (F1 true false N) ((evf N 0).prod (evf N 1))
      (fun f => by simp [mem_F1, evf_apply, Prod.ext_iff])
      (fun t => ⟨fun i => three t.1 t.2 0 N i, by
        refine Prod.ext ?_ ?_
        · simp only [LinearMap.prod_apply, Function.prod, evf_apply]; rw [exf_of _ (by omega)]; simp [three]
        · simp only [LinearMap.prod_apply, Function.prod, evf_apply]; rw [exf_of _ (by omega)]; simp [three]; omega⟩)
    simpa using this
  · have hp := hp rfl
    have := finrank_ker_surj (F1 true true N) ((evf N 0).prod ((evf N 1).prod (evf N (N - 1))))
      (fun f => by simp [mem_F1, evf_apply, Prod.ext_iff, and_assoc])
      (fun t => ⟨fun i => three t.1 t.2.1 t.2.2 N i, by
        refine Prod.ext ?_ (Prod.ext ?_ ?_)
        · simp only [LinearMap.prod_apply, Function.prod, evf_apply]; rw [exf_of _ (by omega)]; simp [three]
        · simp only [LinearMap.prod_apply, Function.prod, evf_apply]; rw [exf_of _ (by omega)]; simp [three]; omega
        · simp only [LinearMap.prod_apply, Function.prod, evf_apply]; rw [exf_of _ (by omega)]; simp [three]; omega⟩)
    simpa using this

theorem finrank_G1 {polar : Bool} {N : Nat} (hN : 2 ≤ N) (hp : polar = true → 3 ≤ N) :
    finrank ℝ (G1 polar N) + (if polar = true then 1 else 0) = N - 1 := by
  rcases polar with _ | _ <;> simp only [Bool.false_eq_true, if_false, if_true]
  · have := finrank_ker_surj (G1 false N) (0 : (Fin (N - 1) → ℝ) →ₗ[ℝ] (Fin 0 → ℝ)) (fun f => by simp [mem_G1])
      (fun t => ⟨0, Subsingleton.elim _ _⟩)
    simpa using this
  · have := finrank_ker_surj (G1 true N) (evf (N - 1) 0) (fun f => by simp [mem_G1, evf_apply])
      (fun t => ⟨fun i => three t 0 0 N i, by rw [evf_apply, exf_of _ (by omega)]; simp [three]⟩)
    simpa using this

/-- Radial profiles in the kernel. -/
theorem Rad_zero {N M : Nat} (f : Fin N → ℝ) : Rad N M f = 0 ↔ ∀ i < N - 1, codeRad N M (exf f) i = 0 := by
  constructor
  · intro h i hi; rw [← exf_Rad f hi, h, exf_zero]
  · intro h; exact exf_ext fun i hi => by rw [exf_Rad f hi, h i hi, exf_zero]

/-- Two values determine an element of the kernel. -/
theorem ker_two {N M : Nat} (hN : 2 ≤ N) (hM : 1 ≤ M) {f : Fin N → ℝ} (h : Rad N M f = 0) (e0 : exf f 0 = 0) (e1 : exf f (N - 1) = 0) : f = 0 := by
  obtain ⟨p1, p2, p3⟩ := (codeRad_zero_iff hN hM _).mp ((Rad_zero f).mp h)
  refine exf_ext fun i hi => ?_
  rw [exf_zero]
  by_cases hl : i = N - 1
  · rw [hl, e1]
  · rcases Nat.lt_trichotomy N M with c | c | c
    · exact p2 c i (by omega)
    · rw [p1 c i hi, e0]
    · rcases Nat.lt_or_ge i M with hm | hm
      · rw [(p3 c).1 i hm, e0]
      · exact (p3 c).2 i hm (by omega)

/-- Number of scalar profiles annihilated by the radial operator. -/
def k0 (polar dir : Bool) (N M : Nat) : Nat :=
  if dir = true then (if polar = true ∧ M < N then 1 else 0) else (if M < N then 2 else 1)
/-- Number of circulation profiles annihilated by the radial operator. -/
def k1 (polar dir : Bool) (N M : Nat) : Nat :=
  if dir = true then 0 else if polar = true then (if N = M then 0 else 1) else (if M < N then 2 else 1)

theorem finrank_by {n : Nat} {T : Type} [AddCommGroup T] [Module ℝ T] (K : Submodule ℝ (Fin n → ℝ)) (φ : (Fin n → ℝ) →ₗ[ℝ] T)
    (hinj : ∀ u ∈ K, φ u = 0 → u = 0) (hsurj : ∀ a, ∃ u ∈ K, φ u = a) : finrank ℝ K = finrank ℝ T := by
  refine LinearEquiv.finrank_eq (LinearEquiv.ofBijective (φ.domRestrict K) ⟨?_, ?_⟩)
  · rw [← LinearMap.ker_eq_bot, LinearMap.ker_eq_bot']
    rintro ⟨u, hu⟩ h0
    exact Subtype.ext (hinj u hu h0)
  · intro a
    obtain ⟨u, hu, e⟩ := hsurj a
    exact ⟨⟨u, hu⟩, e⟩

/-- The elements of the kernel. -/
def kerf (N M : Nat) (a c : ℝ) (i : Nat) : ℝ := if i = N - 1 ∧ N ≠ M then c else if i < M ∧ ¬ N < M then a else 0

theorem kerf_mem {N M : Nat} (hN : 2 ≤ N) (hM : 1 ≤ M) (a c : ℝ) : Rad N M (fun i => kerf N M a c i) = 0 := by
  rw [Rad_zero]
  have e : ∀ i < N, exf (fun i : Fin N => kerf N M a c i) i = kerf N M a c i := fun i hi => exf_of _ hi
  intro i hi
  rw [codeRad_congr hi e]
  revert i
  rw [codeRad_zero_iff hN hM]
  unfold kerf
  refine ⟨fun h i hi => ?_, fun h i hi => ?_, fun h => ⟨fun i hi => ?_, fun i h1 h2 => ?_⟩⟩
  · rw [if_neg (by omega), if_pos (by omega), if_neg (by omega), if_pos (by omega)]
  · rw [if_neg (by omega), if_neg (by omega)]
  · rw [if_neg (by omega), if_pos (by omega), if_neg (by omega), if_pos (by omega)]
  · rw [if_neg (by omega), if_neg (by omega)]

theorem finrank_K0 {polar dir : Bool} {N M : Nat} (hN : 2 ≤ N) (hM : 1 ≤ M) (hp : polar = true → 3 ≤ N ∧ 3 ≤ M) :
    finrank ℝ ↥(LinearMap.ker (Rad N M) ⊓ F0 polar dir N) = k0 polar dir N M := by
  have ev : ∀ a c i, i < N → exf (fun i : Fin N => kerf N M a c i) i = kerf N M a c i := fun a c i hi => exf_of _ hi
  have pol : polar = true → ∀ a c, exf (fun i : Fin N => kerf N M a c i) 1 = exf (fun i : Fin N => kerf N M a c i) 0 := by
    intro h a c
    have := hp h
    rw [ev _ _ _ (by omega), ev _ _ _ (by omega)]
    unfold kerf
    rw [if_neg (show ¬ (1 = N - 1 ∧ N ≠ M) by omega), if_neg (show ¬ (0 = N - 1 ∧ N ≠ M) by omega)]
    exact if_congr (by omega) rfl rfl
  unfold k0
  rcases Bool.eq_false_or_eq_true dir with hd | hd
  · rw [if_pos hd]
    by_cases hc : polar = true ∧ M < N
    · rw [if_pos hc]
      rw [finrank_by _ (evf N 0), finrank_self]
      · rintro f ⟨h1, h2⟩ e
        exact ker_two hN hM h1 e ((mem_F0.mp h2).2.1 hd)
      · intro a
        refine ⟨fun i => kerf N M a 0 i, ⟨kerf_mem hN hM a 0, mem_F0.mpr ⟨fun h => pol h a 0, fun _ => ?_, fun h => ?_⟩⟩, ?_⟩
        · rw [ev _ _ _ (by omega)]; unfold kerf; rw [if_pos (by omega)]
        · rw [hc.1] at h; cases h
        · rw [evf_apply, ev _ _ _ (by omega)]; unfold kerf; rw [if_neg (by omega), if_pos (by omega)]
    · rw [if_neg hc]
      have : LinearMap.ker (Rad N M) ⊓ F0 polar dir N = ⊥ := by
        rw [eq_bot_iff]
        rintro f ⟨h1, h2⟩
        rw [Submodule.mem_bot]
        refine ker_two hN hM h1 ?_ ((mem_F0.mp h2).2.1 hd)
        rcases Bool.eq_false_or_eq_true polar with hpo | hpo
        · have hle : N ≤ M := by
            by_contra hcon
            exact hc ⟨hpo, by omega⟩
          have h3 := hp hpo
          obtain ⟨p1, p2, _⟩ := (codeRad_zero_iff hN hM _).mp ((Rad_zero f).mp h1)
          rcases Nat.lt_or_ge N M with c | c
          · exact p2 c 0 (by omega)
          · rw [← p1 (by omega) (N - 1) (by omega)]; exact (mem_F0.mp h2).2.1 hd
        · exact (mem_F0.mp h2).2.2 hpo hd
      rw [this, finrank_bot]
  · have hd' : ¬ dir = true := by rw [hd]; simp
    rw [if_neg hd']
    by_cases hc : M < N
    · rw [if_pos hc]
      rw [finrank_by _ ((evf N 0).prod (evf N (N - 1)))]
      · simp
      · rintro f ⟨h1, h2⟩ e
        exact ker_two hN hM h1 (congrArg Prod.fst e) (congrArg Prod.snd e)
      · intro t
        refine ⟨fun i => kerf N M t.1 t.2 i, ⟨kerf_mem hN hM _ _, mem_F0.mpr ⟨fun h => pol h _ _, fun h => absurd h hd', fun _ h => absurd h hd'⟩⟩, ?_⟩
        refine Prod.ext ?_ ?_
        · simp only [LinearMap.prod_apply, Function.prod, evf_apply]
          rw [ev _ _ _ (by omega)]; unfold kerf; rw [if_neg (by omega), if_pos (by omega)]
        · simp only [LinearMap.prod_apply, Function.prod, evf_apply]
          rw [ev _ _ _ (by omega)]; unfold kerf; rw [if_pos (by omega)]
    · rw [if_neg hc, finrank_by _ (evf N (N - 1)), finrank_self]
      · rintro f ⟨h1, h2⟩ e
        refine ker_two hN hM h1 ?_ e
        obtain ⟨p1, p2, _⟩ := (codeRad_zero_iff hN hM _).mp ((Rad_zero f).mp h1)
        rcases Nat.lt_or_ge N M with c | c
        · exact p2 c 0 (by omega)
        · rw [← p1 (by omega) (N - 1) (by omega)]; exact e
      · intro a
        refine ⟨fun i => kerf N M a a i, ⟨kerf_mem hN hM _ _, mem_F0.mpr ⟨fun h => pol h _ _, fun h => absurd h hd', fun _ h => absurd h hd'⟩⟩, ?_⟩
        rw [evf_apply, ev _ _ _ (by omega)]; unfold kerf
        by_cases hNM : N = M
        · rw [if_neg (by omega), if_pos (by omega)]
        · rw [if_pos (by omega)]

theorem finrank_K1 {polar dir : Bool} {N M : Nat} (hN : 2 ≤ N) (hM : 1 ≤ M) (hp : polar = true → 3 ≤ N ∧ 3 ≤ M) :
    finrank ℝ ↥(LinearMap.ker (Rad N M) ⊓ F1 polar dir N) = k1 polar dir N M := by
  have ev : ∀ a c i, i < N → exf (fun i : Fin N => kerf N M a c i) i = kerf N M a c i := fun a c i hi => exf_of _ hi
  rcases Bool.eq_false_or_eq_true polar with hpo | hpo
  · have h3 := hp hpo
    unfold k1
    rw [if_pos hpo]
    rcases Bool.eq_false_or_eq_true dir with hd | hd
    · rw [if_pos hd]
      have : LinearMap.ker (Rad N M) ⊓ F1 polar dir N = ⊥ := by
        rw [eq_bot_iff]
        rintro f ⟨h1, h2⟩
        rw [Submodule.mem_bot]
        exact ker_two hN hM h1 ((mem_F1.mp h2).1 hpo).1 ((mem_F1.mp h2).2.1 hd)
      rw [this, finrank_bot]
    · have hd' : ¬ dir = true := by rw [hd]; simp
      rw [if_neg hd']
      by_cases hNM : N = M
      · rw [if_pos hNM]
        have : LinearMap.ker (Rad N M) ⊓ F1 polar dir N = ⊥ := by
          rw [eq_bot_iff]
          rintro f ⟨h1, h2⟩
          rw [Submodule.mem_bot]
          have e0 := ((mem_F1.mp h2).1 hpo).1
          refine ker_two hN hM h1 e0 ?_
          obtain ⟨p1, _, _⟩ := (codeRad_zero_iff hN hM _).mp ((Rad_zero f).mp h1)
          rw [p1 hNM (N - 1) (by omega), e0]
        rw [this, finrank_bot]
      · rw [if_neg hNM, finrank_by _ (evf N (N - 1)), finrank_self]
        · rintro f ⟨h1, h2⟩ e
          exact ker_two hN hM h1 ((mem_F1.mp h2).1 hpo).1 e
        · intro a
          refine ⟨fun i => kerf N M 0 a i, ⟨kerf_mem hN hM _ _, mem_F1.mpr ⟨fun h => ⟨?_, ?_⟩, fun h => absurd h hd', fun _ h => absurd h hd'⟩⟩, ?_⟩
          · rw [ev _ _ _ (by omega)]; unfold kerf; rw [if_neg (by omega)]; simp
          · rw [ev _ _ _ (by omega)]; unfold kerf; rw [if_neg (by omega)]; simp
          · rw [evf_apply, ev _ _ _ (by omega)]; unfold kerf; rw [if_pos (by omega)]
  · have e : F1 polar dir N = F0 polar dir N := by
      ext f; rw [mem_F0, mem_F1, hpo]; simp
    rw [e, finrank_K0 hN hM hp]
    unfold k0 k1
    rw [hpo]; simp

/-- The dimension of a cokernel. -/
theorem finrank_coker {n m : Nat} (A : (Fin n → ℝ) →ₗ[ℝ] (Fin m → ℝ)) (F : Submodule ℝ (Fin n → ℝ)) (G : Submodule ℝ (Fin m → ℝ))
    (h : ∀ f ∈ F, A f ∈ G) : finrank ℝ ↥(G.map (F.map A).mkQ) + finrank ℝ F = finrank ℝ G + finrank ℝ ↥(LinearMap.ker A ⊓ F) := by
  have a := LinearMap.finrank_range_add_finrank_ker (A.domRestrict F)
  have b := LinearMap.finrank_range_add_finrank_ker ((F.map A).mkQ.domRestrict G)
  rw [LinearMap.range_domRestrict] at a b
  have ka : LinearMap.ker (A.domRestrict F) = (LinearMap.ker A ⊓ F).comap F.subtype := by
    ext ⟨f, hf⟩; simp [hf]
  have kb : LinearMap.ker ((F.map A).mkQ.domRestrict G) = (F.map A).comap G.subtype := by
    ext ⟨g, hg⟩; simp
  rw [ka, finrank_sub_of_le inf_le_right] at a
  rw [kb, finrank_sub_of_le (by rintro _ ⟨f, hf, rfl⟩; exact h f hf)] at b
  omega

theorem Rad_F0 {polar dir : Bool} {N M : Nat} (hp : polar = true → 3 ≤ N ∧ 3 ≤ M) : ∀ f ∈ F0 polar dir N, Rad N M f ∈ G1 polar N := by
  intro f hf
  rw [mem_G1]
  intro h
  have := hp h
  rw [exf_Rad f (by omega)]
  unfold codeRad
  rw [if_pos (by omega), if_neg (by omega), (mem_F0.mp hf).1 h]; ring

theorem Rad_F1 {polar dir : Bool} {N M : Nat} (hp : polar = true → 3 ≤ N ∧ 3 ≤ M) : ∀ f ∈ F1 polar dir N, Rad N M f ∈ G1 polar N := by
  intro f hf
  rw [mem_G1]
  intro h
  have := hp h
  rw [exf_Rad f (by omega)]
  unfold codeRad
  rw [if_pos (by omega), if_neg (by omega), ((mem_F1.mp hf).1 h).1, ((mem_F1.mp hf).1 h).2]; ring

theorem finrank_C0 {polar dir : Bool} {N M : Nat} (hN : 2 ≤ N) (hM : 1 ≤ M) (hp : polar = true → 3 ≤ N ∧ 3 ≤ M) :
    finrank ℝ ↥((G1 polar N).map ((F0 polar dir N).map (Rad N M)).mkQ) + 1 = k0 polar dir N M + (if dir = true then (if polar = true then 1 else 2) else 0) := by
  have a := finrank_coker (Rad N M) (F0 polar dir N) (G1 polar N) (Rad_F0 hp)
  rw [finrank_K0 hN hM hp] at a
  have b := finrank_F0 (polar := polar) (dir := dir) hN (fun h => (hp h).1)
  have c := finrank_G1 (polar := polar) hN (fun h => (hp h).1)
  rcases polar with _ | _ <;> rcases dir with _ | _ <;> simp only [Bool.false_eq_true, if_false, if_true] at a b c ⊢
  · omega
  · omega
  · have := hp rfl; omega
  · have := hp rfl; omega

theorem finrank_C1 {polar dir : Bool} {N M : Nat} (hN : 2 ≤ N) (hM : 1 ≤ M) (hp : polar = true → 3 ≤ N ∧ 3 ≤ M) :
    finrank ℝ ↥((G1 polar N).map ((F1 polar dir N).map (Rad N M)).mkQ) + (if polar = true then 0 else 1)
      = k1 polar dir N M + (if dir = true then (if polar = true then 1 else 2) else 0) := by
  have a := finrank_coker (Rad N M) (F1 polar dir N) (G1 polar N) (Rad_F1 hp)
  rw [finrank_K1 hN hM hp] at a
  have b := finrank_F1 (polar := polar) (dir := dir) hN (fun h => (hp h).1)
  have c := finrank_G1 (polar := polar) hN (fun h => (hp h).1)
  rcases polar with _ | _ <;> rcases dir with _ | _ <;> simp only [Bool.false_eq_true, if_false, if_true] at a b c ⊢
  · omega
  · omega
  · have := hp rfl; omega
  · have := hp rfl; omega

end Mrx
