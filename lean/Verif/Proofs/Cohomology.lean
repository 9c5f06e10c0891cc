import Verif.Proofs.Exact
import Verif.Proofs.Arrays
import Mathlib.LinearAlgebra.Matrix.Rank
import Mathlib.LinearAlgebra.Dimension.Finrank
import Mathlib.LinearAlgebra.FiniteDimensional.Lemmas

/-! # Conforming arrays and the cohomology of the discrete complex -/

set_option linter.unusedSectionVars false
set_option linter.unusedSimpArgs false

namespace Mrx
open Finset Jax Spec Matrix Quad Props Module

/-- Sizes of a `k`-form, clamped radially and periodic in both angles. -/
def dk (N M L : Nat) (k : Int) : Dims := ⟨k, N, M, L, N - 1, M, L⟩

/-- The arrays in the range of the extraction operators. -/
def Conf (polar dir : Bool) (N M L : Nat) (k : Int) (V : Nat → Nat → Nat → Nat → ℝ) : Prop :=
  if polar = true then PolarForm k N M L L dir V
  else dir = true → ∀ c i j l, (dk N M L k).InRange c i j l → isDeriv k c 0 = false → (i = 0 ∨ i + 1 = N) → V c i j l = 0

theorem dk_in (N M L : Nat) :
    (∀ c i j l, (dk N M L 0).InRange c i j l ↔ c = 0 ∧ i < N ∧ j < M ∧ l < L) ∧
    (∀ i j l, (dk N M L 1).InRange 0 i j l ↔ i < N - 1 ∧ j < M ∧ l < L) ∧
    (∀ i j l, (dk N M L 1).InRange 1 i j l ↔ i < N ∧ j < M ∧ l < L) ∧
    (∀ i j l, (dk N M L 1).InRange 2 i j l ↔ i < N ∧ j < M ∧ l < L) ∧
    (∀ i j l, (dk N M L 2).InRange 0 i j l ↔ i < N ∧ j < M ∧ l < L) ∧
    (∀ i j l, (dk N M L 2).InRange 1 i j l ↔ i < N - 1 ∧ j < M ∧ l < L) ∧
    (∀ i j l, (dk N M L 2).InRange 2 i j l ↔ i < N - 1 ∧ j < M ∧ l < L) ∧
    (∀ c i j l, (dk N M L 3).InRange c i j l ↔ c = 0 ∧ i < N - 1 ∧ j < M ∧ l < L) := by
  refine ⟨?_, ?_, ?_, ?_, ?_, ?_, ?_, ?_⟩
  · intro c i j l
    rcases c with _ | c <;> simp [Dims.InRange, Dims.cshape, Dims.shape, dk]
  · intro i j l; simp [Dims.InRange, Dims.cshape, Dims.shape, dk]
  · intro i j l; simp [Dims.InRange, Dims.cshape, Dims.shape, dk]
  · intro i j l; simp [Dims.InRange, Dims.cshape, Dims.shape, dk]
  · intro i j l; simp [Dims.InRange, Dims.cshape, Dims.shape, dk]
  · intro i j l; simp [Dims.InRange, Dims.cshape, Dims.shape, dk]
  · intro i j l; simp [Dims.InRange, Dims.cshape, Dims.shape, dk]
  · intro c i j l
    rcases c with _ | c <;> simp [Dims.InRange, Dims.cshape, Dims.shape, dk]

theorem polar_conf {k : Int} {ns ps : Nat × Nat × Nat} {tz : String} {f : Form ℝ} (h : PolarSetting k ns ps tz f)
    (hk : k = 0 ∨ k = 1 ∨ k = 2 ∨ k = 3) (hd : f.dims = dk ns.1 ns.2.1 ns.2.2 k) (dir : Bool) :
    (∀ u, Conf true dir ns.1 ns.2.1 ns.2.2 k (coef f.dims ((PolarOp.mk f.dims (getXi ns.2.1) dir).matrixᵀ *ᵥ u))) ∧
    (∀ V, Conf true dir ns.1 ns.2.1 ns.2.2 k V → ∃ u, ∀ c i j l, (dk ns.1 ns.2.1 ns.2.2 k).InRange c i j l →
      coef f.dims ((PolarOp.mk f.dims (getXi ns.2.1) dir).matrixᵀ *ᵥ u) c i j l = V c i j l) := by
  have e : f.dims.dz = ns.2.2 := by rw [hd]; rfl
  have hv : Dims.validDegree f.dims.k := by
    rw [hd]; simp only [dk]; unfold Dims.validDegree; omega
  constructor
  · intro u
    have := (C28_range_is_polar_forms k ns ps tz f h dir _).mp ⟨u, rfl⟩
    rw [e] at this
    simpa [Conf] using this
  · intro V hV
    simp only [Conf, if_true] at hV
    have hc : ∀ c i j l, f.dims.InRange c i j l → coef f.dims (fun a => V (f.dims.unravelIndex a).1 (f.dims.unravelIndex a).2.1
        (f.dims.unravelIndex a).2.2.1 (f.dims.unravelIndex a).2.2.2) c i j l = V c i j l :=
      fun c i j l hin => coef_ofArray f.dims hv V hin
    have hP : PolarForm k ns.1 ns.2.1 ns.2.2 f.dims.dz dir (coef f.dims (fun a => V (f.dims.unravelIndex a).1 (f.dims.unravelIndex a).2.1
        (f.dims.unravelIndex a).2.2.1 (f.dims.unravelIndex a).2.2.2)) := by
      by_cases h0 : k = 0
      · subst h0
        unfold PolarForm at hV ⊢
        rw [if_pos rfl] at hV ⊢
        refine polar0_congr' h.nr (fun i hi j hj l hl => hc 0 i j l ?_) hV
        rw [hd]; exact ((dk_in _ _ _).1 _ _ _ _).mpr ⟨rfl, hi, hj, hl⟩
      · have e1 : f.dims.k = k := by rw [hd]; rfl
        have e2 : f.dims.nr = ns.1 := by rw [hd]; rfl
        have e3 : f.dims.nt = ns.2.1 := by rw [hd]; rfl
        have e4 : f.dims.nz = ns.2.2 := by rw [hd]; rfl
        have := polarForm_congr f.dims (by omega) (by rw [e2]; exact h.nr) (by rw [hd]; rfl) (by rw [hd]; rfl) (fun _ => by rw [hd]; rfl)
          dir _ V hc (by rw [e1, e2, e3, e4, e]; exact hV)
        rw [e1, e2, e3, e4] at this
        exact this
    obtain ⟨u, hu⟩ := (C28_range_is_polar_forms k ns ps tz f h dir _).mpr hP
    refine ⟨u, fun c i j l hin => ?_⟩
    rw [hu]
    exact hc c i j l (by rw [hd]; exact hin)

theorem kept_dk (N M L : Nat) (k : Int) (dir : Bool) (c i j l : Nat) :
    Kept (dk N M L k) (DeRham.bcTypes dir) (c, i, j, l) ↔ (dir = true → isDeriv k c 0 = true ∨ (i ≠ 0 ∧ i + 1 ≠ N)) := by
  cases dir
  · simp [Kept, DeRham.bcTypes, Keeps1, LeftConstrained, RightConstrained]
  · simp [Kept, DeRham.bcTypes, Keeps1, LeftConstrained, RightConstrained, dk]

theorem boundary_conf (d : Dims) {k : Int} {N M L : Nat} (hk : k = 0 ∨ k = 1 ∨ k = 2 ∨ k = 3) (hd : d = dk N M L k) (dir : Bool) :
    (∀ u, Conf false dir N M L k (coef d ((BoundaryOp.mk d (DeRham.bcTypes dir)).matrixᵀ *ᵥ u))) ∧
    (∀ V, Conf false dir N M L k V → ∃ u, ∀ c i j l, (dk N M L k).InRange c i j l →
      coef d ((BoundaryOp.mk d (DeRham.bcTypes dir)).matrixᵀ *ᵥ u) c i j l = V c i j l) := by
  subst hd
  have hv : Dims.validDegree (dk N M L k).k := by
    simp only [dk]; unfold Dims.validDegree; omega
  have hv' : (dk N M L k).k = 0 ∨ (dk N M L k).k = 1 ∨ (dk N M L k).k = 2 ∨ (dk N M L k).k = 3 := hk
  constructor
  · intro u
    simp only [Conf, Bool.false_eq_true, if_false]
    intro hdir c i j l hin hder hi
    have hdrop := (boundary_range (BoundaryOp.mk (dk N M L k) (DeRham.bcTypes dir)) hv' _).mp ⟨u, rfl⟩
    refine dropped_coef (dk N M L k) hv (DeRham.bcTypes dir) _ hdrop hin ?_
    rw [kept_dk]
    intro hx
    rcases hx hdir with hx | hx
    · rw [hder] at hx; cases hx
    · omega
  · intro V hV
    simp only [Conf, Bool.false_eq_true, if_false] at hV
    obtain ⟨u, hu⟩ := (boundary_range (BoundaryOp.mk (dk N M L k) (DeRham.bcTypes dir)) hv' (fun a => V ((dk N M L k).unravelIndex a).1
      ((dk N M L k).unravelIndex a).2.1 ((dk N M L k).unravelIndex a).2.2.1 ((dk N M L k).unravelIndex a).2.2.2)).mpr (by
        intro a ha
        have hx : ¬ Kept (dk N M L k) (DeRham.bcTypes dir) (((dk N M L k).unravelIndex a).1, ((dk N M L k).unravelIndex a).2.1,
          ((dk N M L k).unravelIndex a).2.2.1, ((dk N M L k).unravelIndex a).2.2.2) := ha
        rw [kept_dk] at hx
        push Not at hx
        obtain ⟨x1, x2, x3⟩ := hx
        obtain ⟨h1, _⟩ := (dk N M L k).unravelIndex_inRange hv a.2
        refine hV x1 _ _ _ _ h1 (by simpa using x2) ?_
        by_cases hz : ((dk N M L k).unravelIndex a).2.1 = 0
        · exact Or.inl hz
        · exact Or.inr (x3 hz))
    refine ⟨u, fun c i j l hin => ?_⟩
    rw [hu]
    exact coef_ofArray (dk N M L k) hv V hin

end Mrx
