import Verif.Props.HighSlope
import Verif.Props.HighOrder2

/-!
# C119: gradients and Poisson solutions of full order, on every sequence
-/

set_option linter.unusedSectionVars false
set_option linter.unusedVariables false

namespace Mrx.Props
open Finset Mrx.Spec Mrx Matrix DeRham Quad

/-- **C119** One direction: a spline approximates a smooth function with order `p + 1` and its derivative, which `DerivativeSpline` computes from the differences of the coefficients, with order `p`;
the spline has the end values of the function, and near the left end of a clamped direction the error is also of order `p` relative to the distance. -/
theorem C119_direction {n p q : Nat} {ty : String} (h : DirOK n p q ty) {s : SplineBasis ℝ} (hs : SplineBasis.mk? n p ty = .ok s) {d : DerivativeSpline ℝ} (hd : DerivativeSpline.mk? s = .ok d)
    {D : Nat → ℝ → ℝ} {M : ℝ} (hD : SmoothDir ty p D M) :
    ∃ c : Nat → ℝ, (ty = "clamped" → c 0 = D 0 0 ∧ c (n - 1) = D 0 1) ∧
      (∀ x, 0 ≤ x → x ≤ 1 → |D 0 x - ∑ i ∈ range n, c i * s.evaluate x (i : Int)| ≤ fullOrder n p ty M) ∧
      (ty = "clamped" → ∀ x, 0 ≤ x → x ≤ 1 → |D 0 x - ∑ i ∈ range n, c i * s.evaluate x (i : Int)| ≤ x * slopeOrder n p ty M) ∧
      ∀ x, 0 ≤ x → x < 1 → |D 1 x - ∑ i ∈ range (Form.dsize n ty), (c ((i + 1) % n) - c i) * d.evaluate x (i : Int)| ≤ slopeOrder n p ty M := by
  obtain ⟨c, h1, -, h2, h3, h4⟩ := dir_slope h hs hd hD
  exact ⟨c, fun e => ⟨(h1 e).1, (h1 e).2.1⟩, h2, h3, h4⟩

/-- Case: cubic splines and `sin πx`, `sin 2πx`. -/
example (s : SplineBasis ℝ) (hs : SplineBasis.mk? 8 3 "clamped" = .ok s) (d : DerivativeSpline ℝ) (hd : DerivativeSpline.mk? s = .ok d) :=
  C119_direction (q := 4) (Or.inl ⟨rfl, by norm_num, by norm_num, by norm_num, Or.inl (by norm_num : 3 + 1 ≤ 4)⟩) hs hd (sinJet_clamped Real.pi_pos.le 3)

section Forms
variable {ns ps : Nat × Nat × Nat} {q : Nat} {types : String × String × String} {F : V3 → V3} {polar dirichlet : Bool} {D : DeRham}

theorem tensorGrad_product (D : DeRham) (ns : Nat × Nat × Nat) (types : String × String × String) (c e f : Nat → ℝ) (x : ℝ × ℝ × ℝ) :
    tensorGrad D ns types (fun i j l => c i * e j * f l) x =
      ![(∑ i ∈ range (Form.dsize ns.1 types.1), (c ((i + 1) % ns.1) - c i) * D.S.L0.dΛ0.evaluate x.1 i) * (∑ j ∈ range ns.2.1, e j * D.S.L0.Λ1.evaluate x.2.1 j)
          * ∑ l ∈ range ns.2.2, f l * D.S.L0.Λ2.evaluate x.2.2 l,
        (∑ i ∈ range ns.1, c i * D.S.L0.Λ0.evaluate x.1 i) * (∑ j ∈ range (Form.dsize ns.2.1 types.2.1), (e ((j + 1) % ns.2.1) - e j) * D.S.L0.dΛ1.evaluate x.2.1 j)
          * ∑ l ∈ range ns.2.2, f l * D.S.L0.Λ2.evaluate x.2.2 l,
        (∑ i ∈ range ns.1, c i * D.S.L0.Λ0.evaluate x.1 i) * (∑ j ∈ range ns.2.1, e j * D.S.L0.Λ1.evaluate x.2.1 j)
          * ∑ l ∈ range (Form.dsize ns.2.2 types.2.2), (f ((l + 1) % ns.2.2) - f l) * D.S.L0.dΛ2.evaluate x.2.2 l] := by
  unfold tensorGrad
  rw [← tensor_split, ← tensor_split, ← tensor_split]
  refine congrArg₂ _ ?_ (congrArg₂ _ ?_ (congrArg₂ _ ?_ rfl)) <;>
  exact sum_congr rfl fun i _ => sum_congr rfl fun j _ => sum_congr rfl fun l _ => by beta_reduce; ring

theorem gradError_nonneg (h : Admissible ns ps q types F polar dirichlet D) (a : GradTerm) (ha : a.Ok ps types polar dirichlet) (c : Fin 3) : 0 ≤ a.gradError ns ps types polar c := by
  obtain ⟨⟨o1, o2, o3, ob, oa, od⟩, o'⟩ := ha
  have b := ob 0 le_rfl zero_le_one
  have b' := o' 0 le_rfl zero_le_one
  have f1 := fullOrder_nonneg h.r o1
  have f2 := fullOrder_nonneg h.t o2
  have f3 := fullOrder_nonneg h.z o3
  have s1 := slopeOrder_nonneg h.r o1
  have s2 := slopeOrder_nonneg h.t o2
  have s3 := slopeOrder_nonneg h.z o3
  have P : ∀ {A B C e1 e2 e3 : ℝ}, 0 ≤ A → 0 ≤ B → 0 ≤ C → 0 ≤ e1 → 0 ≤ e2 → 0 ≤ e3 → 0 ≤ (A + e1) * (B + e2) * (C + e3) - A * B * C := fun {A B C e1 e2 e3} hA hB hC h1 h2 h3 => by
    have := high_product (a := A) (b := B) (c := C) (a' := A) (b' := B) (c' := C) (A := A) (B := B) (C := C) (e1 := e1) (e2 := e2) (e3 := e3)
      (abs_of_nonneg hA).le (abs_of_nonneg hB).le (abs_of_nonneg hC).le (by simpa using h1) (by simpa using h2) (by simpa using h3)
    exact (abs_nonneg _).trans this
  have G := (abs_nonneg _).trans b.1
  have T := (abs_nonneg _).trans b.2.1
  have W := (abs_nonneg _).trans b.2.2
  have G1 := (abs_nonneg _).trans b'.1
  have T1 := (abs_nonneg _).trans b'.2.1
  have W1 := (abs_nonneg _).trans b'.2.2
  fin_cases c
  · exact P G1 T W s1 f2 f3
  · show 0 ≤ ite _ _ _
    split_ifs
    · exact P G1 T1 W s1 s2 f3
    · exact P G T1 W f1 s2 f3
  · exact P G T W1 f1 f2 s3

theorem term_grad (h : Admissible ns ps q types F polar dirichlet D) (a : GradTerm) (ha : a.Ok ps types polar dirichlet) :
    ∃ C : Nat → Nat → Nat → ℝ, (polar = true → Polar0 ns.1 ns.2.1 ns.2.2 dirichlet C) ∧
      (polar = false → dirichlet = true → ∀ j < ns.2.1, ∀ l < ns.2.2, C 0 j l = 0 ∧ C (ns.1 - 1) j l = 0) ∧
      (∀ x, InCube x → |a.value x - tensorValue D ns C x| ≤ a.error ns ps types) ∧
      ∀ x, InOpenCube x → ∀ c, |a.grad x c - tensorGrad D ns types C x c| ≤ axisScale polar x c * a.gradError ns ps types polar c := by
  have nn := gradError_nonneg h a ha
  obtain ⟨m0, _, _, _, hQ⟩ := Seq.mk?_inv (Admissible.seq h.built)
  obtain ⟨hk, hd, s0, s1, s2, d0, d1, d2⟩ := Form.mk?_inv m0
  obtain ⟨⟨o1, o2, o3, ob, oa, od⟩, o'⟩ := ha
  obtain ⟨c, cc, -, ce, cx, cs⟩ := dir_slope h.r s0 d0 o1
  obtain ⟨e, ehar, ee, ev, es⟩ : ∃ e : Nat → ℝ, ((∀ x, a.t 0 x = a.t 0 0) ∧ a.g 1 0 = 0 → ∃ v, ∀ j, e j = v) ∧
      (polar = true → ¬ ((∀ x, a.t 0 x = a.t 0 0) ∧ a.g 1 0 = 0) → FirstHarmonic (a.t 0) → ∃ A B : ℝ, ∀ j, e j = A * Real.cos (ang ns.2.1 j) + B * Real.sin (ang ns.2.1 j)) ∧
      (∀ x, 0 ≤ x → x ≤ 1 → |a.t 0 x - ∑ i ∈ range ns.2.1, e i * D.S.L0.Λ1.evaluate x (i : Int)| ≤ fullOrder ns.2.1 ps.2.1 types.2.1 a.Mt) ∧
      ∀ x, 0 ≤ x → x < 1 → |a.t 1 x - ∑ i ∈ range (Form.dsize ns.2.1 types.2.1), (e ((i + 1) % ns.2.1) - e i) * D.S.L0.dΛ1.evaluate x (i : Int)| ≤ slopeOrder ns.2.1 ps.2.1 types.2.1 a.Mt := by
    by_cases hcst : (∀ x, a.t 0 x = a.t 0 0) ∧ a.g 1 0 = 0
    · refine ⟨fun _ => a.t 0 0, fun _ => ⟨_, fun _ => rfl⟩, fun _ hc => absurd hcst hc, fun x h0 h1 => ?_, fun x h0 h1 => ?_⟩
      · rw [← mul_sum, (DirOK.unity h.t).sum s1 x h0 h1, mul_one, hcst.1 x, sub_self, abs_zero]
        exact fullOrder_nonneg h.t o2
      · rw [SmoothDir.flat o2 hcst.1 x h0 h1.le]
        simpa using slopeOrder_nonneg h.t o2
    · obtain ⟨e, -, e1, e2, -, e3⟩ := dir_slope h.t s1 d1 o2
      exact ⟨e, fun hc => absurd hc hcst, fun hp _ hf => e1 (h.polar hp).2.1 hf, e2, e3⟩
  obtain ⟨f, -, -, fe, -, fs⟩ := dir_slope h.z s2 d2 o3
  refine ⟨fun i j l => c i * e j * f l, fun hp => ?_, fun hp hdir j _ l _ => ?_, fun x hx => ?_, fun x hx k => ?_⟩
  · obtain ⟨tr, tt, tz, nr, nt⟩ := h.polar hp
    obtain ⟨c0, c1, c2⟩ := cc tr
    have c2 := c2 nr
    refine ⟨?_, fun hdir j _ l _ => ?_⟩
    · rcases oa hp with ⟨g1, tc⟩ | ⟨g0, th⟩ | ⟨g0, g1⟩
      · obtain ⟨v, hv⟩ := ehar ⟨tc, g1⟩
        refine ⟨fun l => c 0 * v * f l, fun _ => 0, fun _ => 0, fun j _ l _ => ⟨by beta_reduce; rw [hv], ?_⟩⟩
        have : c 1 = c 0 := by rw [c2, c0, g1]; simp
        beta_reduce; rw [hv, this]
        ring
      · by_cases hcst : (∀ x, a.t 0 x = a.t 0 0) ∧ a.g 1 0 = 0
        · obtain ⟨v, hv⟩ := ehar hcst
          refine ⟨fun l => c 0 * v * f l, fun _ => 0, fun _ => 0, fun j _ l _ => ⟨by beta_reduce; rw [hv], ?_⟩⟩
          have : c 1 = c 0 := by rw [c2, c0, hcst.2]; simp
          beta_reduce; rw [hv, this]
          ring
        · obtain ⟨A, B, hAB⟩ := ee hp hcst th
          refine ⟨fun _ => 0, fun l => c 1 * A * f l, fun l => c 1 * B * f l, fun j _ l _ => ⟨by beta_reduce; rw [c0, g0]; ring, ?_⟩⟩
          beta_reduce; rw [hAB]
          ring
      · refine ⟨fun _ => 0, fun _ => 0, fun _ => 0, fun j _ l _ => ⟨by beta_reduce; rw [c0, g0]; ring, ?_⟩⟩
        beta_reduce; rw [c2, g0, g1]
        ring
    · beta_reduce; rw [c1, (od hdir).2.1]
      ring
  · obtain ⟨tc, z1, z0⟩ := od hdir
    obtain ⟨c0, c1, _⟩ := cc tc
    beta_reduce
    rw [c0, c1, z1, z0 hp]
    constructor <;> ring
  · unfold tensorValue
    rw [tensor_split]
    exact high_product (ob x.1 hx.1.1 hx.1.2).1 (ob x.2.1 hx.2.1.1 hx.2.1.2).2.1 (ob x.2.2 hx.2.2.1 hx.2.2.2).2.2 (ce x.1 hx.1.1 hx.1.2) (ev x.2.1 hx.2.1.1 hx.2.1.2) (fe x.2.2 hx.2.2.1 hx.2.2.2)
  · obtain ⟨⟨r0, r1⟩, ⟨t0, t1⟩, z0, z1⟩ := hx
    have br := ob x.1 r0 r1.le
    have bt := ob x.2.1 t0 t1.le
    have bz := ob x.2.2 z0 z1.le
    have br' := o' x.1 r0 r1.le
    have bt' := o' x.2.1 t0 t1.le
    have bz' := o' x.2.2 z0 z1.le
    rw [tensorGrad_product]
    fin_cases k
    · show |_| ≤ axisScale polar x 0 * _
      rw [axisScale, if_neg (fun hc => absurd hc.2 (by decide)), one_mul]
      exact high_product br'.1 bt.2.1 bz.2.2 (cs x.1 r0 r1) (ev x.2.1 t0 t1.le) (fe x.2.2 z0 z1.le)
    · show |_| ≤ axisScale polar x 1 * a.gradError ns ps types polar 1
      have n1 := nn 1
      cases hpol : polar
      · rw [axisScale, if_neg (fun hc => absurd hc.1 (by decide)), one_mul]
        exact high_product br.1 bt'.2.1 bz.2.2 (ce x.1 r0 r1.le) (es x.2.1 t0 t1) (fe x.2.2 z0 z1.le)
      · rw [hpol] at n1
        rw [axisScale, if_pos ⟨rfl, rfl⟩]
        have tr := (h.polar hpol).1
        by_cases hcst : (∀ x, a.t 0 x = a.t 0 0) ∧ a.g 1 0 = 0
        · obtain ⟨v, hv⟩ := ehar hcst
          refine le_trans (le_of_eq ?_) (mul_nonneg r0 n1)
          rw [abs_eq_zero]
          show a.g 0 x.1 * a.t 1 x.2.1 * a.w 0 x.2.2 - (∑ i ∈ range ns.1, c i * D.S.L0.Λ0.evaluate x.1 i)
            * (∑ j ∈ range (Form.dsize ns.2.1 types.2.1), (e ((j + 1) % ns.2.1) - e j) * D.S.L0.dΛ1.evaluate x.2.1 j) * (∑ l ∈ range ns.2.2, f l * D.S.L0.Λ2.evaluate x.2.2 l) = 0
          rw [SmoothDir.flat o2 hcst.1 x.2.1 t0 t1.le]
          simp only [hv, sub_self, zero_mul, sum_const_zero, mul_zero]
        · have g0 : a.g 0 0 = 0 := by
            rcases oa hpol with ⟨g1, tc⟩ | ⟨g0, _⟩ | ⟨g0, _⟩
            · exact absurd ⟨tc, g1⟩ hcst
            · exact g0
            · exact g0
          have lin : |a.g 0 x.1| ≤ x.1 * a.G1 := by
            rw [tr] at o1
            exact SmoothDir.linear o1 g0 (fun y y0 y1 => (o' y y0 y1).1) x.1 r0 r1.le
          have := high_product lin bt'.2.1 bz.2.2 (cx tr x.1 r0 r1.le) (es x.2.1 t0 t1) (fe x.2.2 z0 z1.le)
          refine this.trans_eq ?_
          show _ = x.1 * ((a.G1 + _) * (a.T1 + _) * (a.W + _) - a.G1 * a.T1 * a.W)
          ring
    · show |_| ≤ axisScale polar x 2 * _
      rw [axisScale, if_neg (fun hc => absurd hc.2 (by decide)), one_mul]
      exact high_product br.1 bt.2.1 bz'.2.2 (ce x.1 r0 r1.le) (ev x.2.1 t0 t1.le) (fs x.2.2 z0 z1)

theorem tensorGrad_add (D : DeRham) (ns : Nat × Nat × Nat) (types : String × String × String) (C C' : Nat → Nat → Nat → ℝ) (x : ℝ × ℝ × ℝ) (c : Fin 3) :
    tensorGrad D ns types (fun i j l => C i j l + C' i j l) x c = tensorGrad D ns types C x c + tensorGrad D ns types C' x c := by
  fin_cases c <;> simp only [tensorGrad, Fin.zero_eta, Fin.mk_one, Fin.reduceFinMk, Matrix.cons_val_zero, Matrix.cons_val_one, Matrix.cons_val, ← sum_add_distrib] <;>
  exact sum_congr rfl fun i _ => sum_congr rfl fun j _ => sum_congr rfl fun l _ => by ring

theorem terms_grad (h : Admissible ns ps q types F polar dirichlet D) (l : List GradTerm) (hl : ∀ a ∈ l, a.Ok ps types polar dirichlet) :
    ∃ C : Nat → Nat → Nat → ℝ, (polar = true → Polar0 ns.1 ns.2.1 ns.2.2 dirichlet C) ∧
      (polar = false → dirichlet = true → ∀ j < ns.2.1, ∀ l < ns.2.2, C 0 j l = 0 ∧ C (ns.1 - 1) j l = 0) ∧
      (∀ x, InCube x → |(l.map fun a => a.value x).sum - tensorValue D ns C x| ≤ (l.map fun a => a.error ns ps types).sum) ∧
      ∀ x, InOpenCube x → ∀ c, |(l.map fun a => a.grad x c).sum - tensorGrad D ns types C x c| ≤ axisScale polar x c * (l.map fun a => a.gradError ns ps types polar c).sum := by
  induction l with
  | nil =>
    refine ⟨fun _ _ _ => 0, fun _ => ⟨⟨fun _ => 0, fun _ => 0, fun _ => 0, fun _ _ _ _ => by simp⟩, fun _ _ _ _ _ => rfl⟩, fun _ _ _ _ _ _ => ⟨rfl, rfl⟩, fun x _ => by simp [tensorValue], fun x _ c => ?_⟩
    have : tensorGrad D ns types (fun _ _ _ => 0) x c = 0 := by fin_cases c <;> simp [tensorGrad]
    rw [this]
    simp
  | cons a l ih =>
    obtain ⟨C, C1, C2, C3, C4⟩ := ih fun b hb => hl b (List.mem_cons_of_mem _ hb)
    obtain ⟨C', C1', C2', C3', C4'⟩ := term_grad h a (hl a List.mem_cons_self)
    refine ⟨fun i j l => C' i j l + C i j l, fun hp => ?_, fun hp hd j hj l hl => ?_, fun x hx => ?_, fun x hx c => ?_⟩
    · obtain ⟨⟨a, b, c, k⟩, d⟩ := C1 hp
      obtain ⟨⟨a', b', c', k'⟩, d'⟩ := C1' hp
      refine ⟨⟨fun l => a' l + a l, fun l => b' l + b l, fun l => c' l + c l, fun j hj l hl => ⟨?_, ?_⟩⟩, fun hd j hj l hl => ?_⟩
      · beta_reduce; rw [(k j hj l hl).1, (k' j hj l hl).1]
      · beta_reduce; rw [(k j hj l hl).2, (k' j hj l hl).2]; ring
      · beta_reduce; rw [d hd j hj l hl, d' hd j hj l hl, add_zero]
    · beta_reduce
      rw [(C2 hp hd j hj l hl).1, (C2 hp hd j hj l hl).2, (C2' hp hd j hj l hl).1, (C2' hp hd j hj l hl).2]
      simp
    · have e : tensorValue D ns (fun i j l => C' i j l + C i j l) x = tensorValue D ns C' x + tensorValue D ns C x := by
        unfold tensorValue
        simp only [add_mul, sum_add_distrib]
      rw [e, List.map_cons, List.sum_cons, List.map_cons, List.sum_cons, add_sub_add_comm]
      exact (abs_add_le _ _).trans (add_le_add (C3' x hx) (C3 x hx))
    · rw [tensorGrad_add, List.map_cons, List.sum_cons, List.map_cons, List.sum_cons, add_sub_add_comm, mul_add]
      exact (abs_add_le _ _).trans (add_le_add (C4' x hx c) (C4 x hx c))

/-- **C119** Gradients: a sum of products that satisfies the conditions of the sequence is approximated by a discrete 0-form whose discrete gradient approximates its partial derivatives with the
errors of order `p`; on a polar sequence the error of the poloidal derivative is relative to the radius. -/
theorem C119_gradient (h : Admissible ns ps q types F polar dirichlet D) (hc : Compatible ns types dirichlet) (l : List GradTerm) (hl : ∀ a ∈ l, a.Ok ps types polar dirichlet) :
    ∃ u : Fin D.m0 → ℝ, (∀ x, InCube x → |(l.map fun a => a.value x).sum - D.phys0 u (toV3 x) 0| ≤ (l.map fun a => a.error ns ps types).sum) ∧
      ∀ x, InOpenCube x → ∀ c, |(l.map fun a => a.grad x c).sum - D.form1 (D.strongGrad *ᵥ u) (toV3 x) c| ≤ axisScale polar x c * (l.map fun a => a.gradError ns ps types polar c).sum := by
  obtain ⟨C, C1, C2, C3, C4⟩ := terms_grad h l hl
  obtain ⟨u, hu⟩ := zeroform_coef h C C1 C2
  refine ⟨u, fun x hx => ?_, fun x hx c => ?_⟩
  · have e : D.phys0 u (toV3 x) 0 = tensorValue D ns C x := by
      rw [zeroform_value' h]
      exact sum_congr rfl fun i hi => sum_congr rfl fun j hj => sum_congr rfl fun l hl => by rw [hu i (mem_range.mp hi) j (mem_range.mp hj) l (mem_range.mp hl)]
    rw [e]
    exact C3 x hx
  · rw [strongGrad_tensor h hc C u hu]
    exact C4 x hx c

/-- **C119** Poisson problems with a Dirichlet condition, polar sequences included: the energy error of the computed solution is of order `p`, apart from the quadrature error `K` of the weak
equation. `κ` bounds the inverse Jacobian of the map, near the axis of a polar sequence after scaling the poloidal component by the radius. -/
theorem C119_poisson (h : Admissible ns ps q types F polar dirichlet D) (hc : Compatible ns types dirichlet) (ty : Toroidal types) (hdir : dirichlet = true) (hs : polar = true → ns.1 ≤ ns.2.1)
    (f : V3 → Fin 1 → ℝ) (l : List GradTerm) (hl : ∀ a ∈ l, a.Ok ps types polar dirichlet) (κ K : ℝ) (hκ0 : 0 ≤ κ) (hK : 0 ≤ K)
    (hκ : ∀ x ∈ D.S.Q.x, ∀ e : V3, (((jacfwd F (toV3 x))⁻¹)ᵀ *ᵥ fun c => axisScale polar x c * e c) ⬝ᵥ (((jacfwd F (toV3 x))⁻¹)ᵀ *ᵥ fun c => axisScale polar x c * e c) ≤ κ * (e ⬝ᵥ e))
    (G : V3 → V3) (hG : ∀ x ∈ D.S.Q.x, (jacfwd F (toV3 x))ᵀ *ᵥ G (toV3 x) = fun c : Fin 3 => (l.map fun a => a.grad x c).sum)
    (hw : ∀ v, (l2Product (D.phys1 (D.strongGrad *ᵥ v)) G D.S.Q F - l2Product (D.phys0 v) f D.S.Q F) ^ 2 ≤
      K * l2Product (D.phys1 (D.strongGrad *ᵥ v)) (D.phys1 (D.strongGrad *ᵥ v)) D.S.Q F) :
    l2Product (fun x => G x - D.phys1 (D.strongGrad *ᵥ D.poisson0 f) x) (fun x => G x - D.phys1 (D.strongGrad *ᵥ D.poisson0 f) x) D.S.Q F
      ≤ κ * (∑ c : Fin 3, (l.map fun a => a.gradError ns ps types polar c).sum ^ 2) * quadVolume D F + K := by
  obtain ⟨u, _, hu⟩ := C119_gradient h hc l hl
  refine (C101_poisson_quasi_best h ty hdir hs f G K hK hw u).trans ?_
  have b := l2_le_at_points h (fun x => G x - D.phys1 (D.strongGrad *ᵥ u) x) (κ * ∑ c : Fin 3, (l.map fun a => a.gradError ns ps types polar c).sum ^ 2) fun j hj => by
    obtain ⟨_, _, _, i1, i2, _, _⟩ := h.metricAt hj
    have hx := (h.pointAt hj).2
    have hxo := points_in_open_cube h _ hx
    have hxc : InCube (D.S.point j) := ⟨⟨hxo.1.1, hxo.1.2.le⟩, ⟨hxo.2.1.1, hxo.2.1.2.le⟩, ⟨hxo.2.2.1, hxo.2.2.2.le⟩⟩
    have xe : D.x j = toV3 (D.S.point j) := rfl
    obtain ⟨A, hA⟩ : ∃ A, A = jacfwd F (D.x j) := ⟨_, rfl⟩
    have e1 : G (D.x j) - D.phys1 (D.strongGrad *ᵥ u) (D.x j) = (A⁻¹)ᵀ *ᵥ (Aᵀ *ᵥ G (D.x j) - D.form1 (D.strongGrad *ᵥ u) (D.x j)) := by
      rw [h.phys1_eq (D.strongGrad *ᵥ u) hj, mulVec_sub, mulVec_mulVec, ← transpose_mul, hA, i1, transpose_one, one_mulVec]
    beta_reduce
    rw [e1]
    obtain ⟨y, hy⟩ : ∃ y, y = D.S.point j := ⟨_, rfl⟩
    rw [← hy] at hx hxo hxc xe
    have bd : ∀ c, |(Aᵀ *ᵥ G (D.x j) - D.form1 (D.strongGrad *ᵥ u) (D.x j)) c| ≤ axisScale polar y c * (l.map fun a => a.gradError ns ps types polar c).sum := fun c => by
      rw [hA, xe, hG _ hx]
      exact hu _ hxo c
    have ρ0 : ∀ c, 0 ≤ axisScale polar y c := fun c => by
      unfold axisScale
      split_ifs
      · exact hxo.1.1
      · exact zero_le_one
    have ex : ∀ c, ∃ t : ℝ, (Aᵀ *ᵥ G (D.x j) - D.form1 (D.strongGrad *ᵥ u) (D.x j)) c = axisScale polar y c * t ∧ t ^ 2 ≤ (l.map fun a => a.gradError ns ps types polar c).sum ^ 2 := fun c => by
      rcases (ρ0 c).eq_or_lt with e | e
      · refine ⟨0, ?_, by rw [zero_pow two_ne_zero]; positivity⟩
        have := bd c
        rw [← e, zero_mul, abs_nonpos_iff] at this
        rw [this, mul_zero]
      · refine ⟨(Aᵀ *ᵥ G (D.x j) - D.form1 (D.strongGrad *ᵥ u) (D.x j)) c / axisScale polar y c, by field_simp, ?_⟩
        rw [← sq_abs, abs_div, abs_of_pos e]
        exact pow_le_pow_left₀ (by positivity) (by rw [div_le_iff₀ e, mul_comm]; exact bd c) 2
    choose t ht ht2 using ex
    have vec : Aᵀ *ᵥ G (D.x j) - D.form1 (D.strongGrad *ᵥ u) (D.x j) = fun c => axisScale polar y c * t c := funext ht
    have h3 := hκ _ hx t
    rw [← xe, ← hA] at h3
    rw [vec]
    refine h3.trans (mul_le_mul_of_nonneg_left ?_ hκ0)
    exact sum_le_sum fun c _ => by rw [← sq]; exact ht2 c
  linarith

end Forms

end Mrx.Props
