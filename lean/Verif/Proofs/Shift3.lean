import Verif.Proofs.Shift1
import Verif.Proofs.Shift2
import Verif.Proofs.Exact
import Verif.Proofs.Fields
import Verif.Props.Units

/-! # Toroidal shifts of the tabulated basis functions and of the metric -/

set_option linter.unusedSectionVars false
set_option linter.unusedVariables false

namespace Mrx
open Spec Matrix Quad Props

/-! ## The map -/

theorem shift_add (x : V3) (a : ℝ) : (![x 0, x 1, x 2 + a] : V3) = x + ![0, 0, a] := by
  funext i; fin_cases i <;> simp

theorem jacfwd_shift {F : V3 → V3} {a : ℝ} {R : M33} (h : IsSymmetric F a R) (x : V3) : jacfwd F ![x 0, x 1, x 2 + a] = R * jacfwd F x := by
  obtain ⟨hR, b, hb⟩ := h
  have e : (fun y : V3 => F (y + ![0, 0, a])) = similarity 1 R b F := by
    funext y
    rw [← shift_add, hb]
    unfold similarity
    rw [one_smul]
  have := jacfwd_similarity one_ne_zero hR b F x
  rw [one_smul, ← e] at this
  rw [← this, shift_add]
  unfold jacfwd
  rw [fderiv_comp_add_right]

theorem symmetric_back {F : V3 → V3} {a : ℝ} {R R0 : M33} (h : IsSymmetric F a R) (h0 : IsSymmetric F 1 R0) : IsSymmetric F (a - 1) (R0ᵀ * R) := by
  obtain ⟨hR, b, hb⟩ := h
  obtain ⟨hR0, c, hc⟩ := h0
  have o : R0 * R0ᵀ = 1 := mul_eq_one_comm.1 hR0.orth
  refine ⟨⟨?_, by rw [det_mul, det_transpose, hR0.det, hR.det, one_mul]⟩, R0ᵀ *ᵥ (b - c), fun x => ?_⟩
  · rw [transpose_mul, transpose_transpose, Matrix.mul_assoc, ← Matrix.mul_assoc R0, o, Matrix.one_mul, hR.orth]
  · have e := hc ![x 0, x 1, x 2 + (a - 1)]
    simp only [cons_val_zero, cons_val_one, cons_val_two, Nat.succ_eq_add_one, Nat.reduceAdd, tail_cons, head_cons] at e
    rw [show x 2 + (a - 1) + 1 = x 2 + a by ring, hb] at e
    have e' : R0 *ᵥ F ![x 0, x 1, x 2 + (a - 1)] = R *ᵥ F x + (b - c) := by rw [← add_sub_assoc (R *ᵥ F x), e]; simp
    rw [← mulVec_mulVec, ← mulVec_add, ← e', mulVec_mulVec, hR0.orth, one_mulVec]

/-! ## The toroidal quadrature rule -/

variable {ns ps : Nat × Nat × Nat} {q : Nat} {types : String × String × String} {F : V3 → V3} {polar dirichlet : Bool} {D : DeRham}

theorem mod_block {n q e l m : Nat} (hl : l < q) : (e * q + l + m * q) % (n * q) = (e + m) % n * q + l := by
  have : e * q + l + m * q = q * (e + m) + l := by ring
  rw [this, Nat.mul_comm n q, Nat.mod_mul]
  rw [Nat.mul_add_mod, Nat.mod_eq_of_lt hl, Nat.mul_add_div (by omega), Nat.div_eq_of_lt hl, Nat.add_zero, Nat.mul_comm, Nat.add_comm]

namespace Admissible
variable (h : Admissible ns ps q types F polar dirichlet D) (hp : types.2.2 = "periodic")
include h hp

theorem periodicZ : 1 ≤ ps.2.2 ∧ (ps.2.2 < ns.2.2 ∨ ps.2.2 = 1) ∧ 1 ≤ ns.2.2 ∧ ns.2.2 ≤ 49975 ∧ 1 ≤ q := by
  rcases h.z with ⟨a, _⟩ | ⟨_, b, c, d, e, f⟩ | ⟨a, _⟩
  · rw [hp] at a; exact absurd a (by decide)
  · exact ⟨b, c, d, e, by omega⟩
  · rw [hp] at a; exact absurd a (by decide)

/-- The toroidal rule: point `e * q + l` and its weight. -/
theorem zrule : D.S.Q.xz.length = ns.2.2 * q ∧ D.S.Q.wz.length = ns.2.2 * q ∧ (∀ j < ns.2.2 * q, 0 ≤ D.S.Q.xz.getD j 0 ∧ D.S.Q.xz.getD j 0 < 1) ∧
    ∀ l < q, ∃ c v : ℝ, ∀ e < ns.2.2, D.S.Q.xz.getD (e * q + l) 0 = (c + e) / (ns.2.2 : ℝ) ∧ D.S.Q.wz.getD (e * q + l) 0 = v := by
  obtain ⟨p1, p2, p3, p4, p5⟩ := h.periodicZ hp
  obtain ⟨m0, -, -, -, hQ⟩ := Seq.mk?_inv (seq h.built)
  obtain ⟨-, -, -, -, s2, -⟩ := Form.mk?_inv m0
  rw [hp] at s2
  obtain ⟨xs, ws, e1, e2, l1, l2, b, -, -⟩ := C11_select_rule (K := ℝ) ns.2.2 ps.2.2 p1 "periodic" ns.2.2 (Or.inr ⟨rfl, p3, p2, rfl⟩) _ s2 q p5 h.q10
  unfold Quad.Rule.mk? at hQ
  split at hQ
  case h_2 => cases hQ
  rename_i rx ry rz hx hy hz'
  have hQ' := Except.ok.inj hQ
  rw [e1] at hz'
  have hr := Except.ok.inj hz'
  have exz : D.S.Q.xz = xs := by rw [← hQ', ← hr]; rfl
  have ewz : D.S.Q.wz = ws := by rw [← hQ', ← hr]; rfl
  refine ⟨by rw [exz, l1], by rw [ewz, l2], fun j hj => ?_, fun l hl => ?_⟩
  · rw [exz, List.getD_eq_getElem?_getD, List.getElem?_eq_getElem (by omega)]
    have := b _ (List.getElem_mem (by omega : j < xs.length))
    exact ⟨this.1.le, this.2⟩
  · obtain ⟨x, w, -, -, hx, hw⟩ := composite_uniform (K := ℝ) p3 p5 h.q10 (e := 0) (by omega) hl
    refine ⟨((x : ℝ) + 1) / 2, (w : ℝ) / 2 / (ns.2.2 : ℝ), fun e he => ?_⟩
    obtain ⟨x', w', c1, c2, hx', hw'⟩ := composite_uniform (K := ℝ) p3 p5 h.q10 (e := e) he hl
    rw [hx] at hx'; rw [hw] at hw'
    obtain rfl := Option.some.inj hx'
    obtain rfl := Option.some.inj hw'
    rw [← e2] at c1 c2
    rw [exz, ewz, List.getD_eq_getElem?_getD, List.getD_eq_getElem?_getD]
    simp only [] at c1 c2
    rw [c1, c2]
    exact ⟨rfl, rfl⟩

theorem zshift {m : Nat} (hm : m < ns.2.2) {j : Nat} (hj : j < ns.2.2 * q) :
    (j + m * q) % (ns.2.2 * q) < ns.2.2 * q ∧ D.S.Q.wz.getD ((j + m * q) % (ns.2.2 * q)) 0 = D.S.Q.wz.getD j 0 ∧
    (D.S.Q.xz.getD ((j + m * q) % (ns.2.2 * q)) 0 = D.S.Q.xz.getD j 0 + (m : ℝ) / (ns.2.2 : ℝ) ∨
      D.S.Q.xz.getD ((j + m * q) % (ns.2.2 * q)) 0 = D.S.Q.xz.getD j 0 + (m : ℝ) / (ns.2.2 : ℝ) - 1) := by
  obtain ⟨p1, p2, p3, p4, p5⟩ := h.periodicZ hp
  obtain ⟨-, -, -, hz⟩ := h.zrule hp
  have hn : (ns.2.2 : ℝ) ≠ 0 := by exact_mod_cast (by omega : ns.2.2 ≠ 0)
  have hl : j % q < q := Nat.mod_lt _ (by omega)
  have he : j / q < ns.2.2 := (Nat.div_lt_iff_lt_mul (by omega)).2 hj
  have ej : j = j / q * q + j % q := by rw [Nat.mul_comm]; exact (Nat.div_add_mod j q).symm
  generalize j / q = e at he ej
  generalize j % q = l at hl ej
  subst ej
  have he' : (e + m) % ns.2.2 < ns.2.2 := Nat.mod_lt _ (by omega)
  obtain ⟨c, v, hc⟩ := hz l hl
  refine ⟨Nat.mod_lt _ (by omega), ?_⟩
  rw [mod_block hl, (hc _ he).1, (hc _ he).2, (hc _ he').1, (hc _ he').2]
  refine ⟨rfl, ?_⟩
  by_cases hlt : e + m < ns.2.2
  · left
    rw [Nat.mod_eq_of_lt hlt]
    push_cast; ring
  · right
    rw [Nat.mod_eq_sub_mod (by omega), Nat.mod_eq_of_lt (by omega), Nat.cast_sub (by omega)]
    push_cast
    field_simp
    ring

/-! ## Tables -/

theorem dimsZ : D.S.L0.dims.nz = ns.2.2 ∧ D.S.L0.dims.dz = ns.2.2 ∧ D.S.L0.dims.nt = ns.2.1 := by
  rw [h.dims0, hp]
  exact ⟨rfl, by simp [Form.dsize], rfl⟩

theorem lamZ_shift {m : Nat} (hm : m < ns.2.2) {i j : Nat} (hi : i < ns.2.2) (hj : j < ns.2.2 * q) :
    D.S.lamZ.get ((i + m) % ns.2.2) ((j + m * q) % (ns.2.2 * q)) = D.S.lamZ.get i j := by
  obtain ⟨p1, p2, p3, p4, p5⟩ := h.periodicZ hp
  obtain ⟨m0, -⟩ := Seq.mk?_inv (seq h.built)
  obtain ⟨-, -, -, -, s2, -⟩ := Form.mk?_inv m0
  rw [hp] at s2
  obtain ⟨l1, l2, b, -⟩ := h.zrule hp
  obtain ⟨z1, -, z3⟩ := h.zshift hp hm hj
  obtain ⟨d1, d2, d3⟩ := h.dimsZ hp
  rw [Seq.lamZ_get h.quad.wf (by rw [d1]; exact Nat.mod_lt _ (by omega)) (by rw [l1]; exact z1), Seq.lamZ_get h.quad.wf (by rw [d1]; exact hi) (by rw [l1]; exact hj)]
  exact periodic_eval_shift p3 p2 p4 hm s2 (b _ hj).1 (b _ hj).2 (b _ z1).1 (b _ z1).2 z3 hi

theorem dlamZ_shift {m : Nat} (hm : m < ns.2.2) {i j : Nat} (hi : i < ns.2.2) (hj : j < ns.2.2 * q) :
    D.S.dlamZ.get ((i + m) % ns.2.2) ((j + m * q) % (ns.2.2 * q)) = D.S.dlamZ.get i j := by
  obtain ⟨p1, p2, p3, p4, p5⟩ := h.periodicZ hp
  obtain ⟨m0, -⟩ := Seq.mk?_inv (seq h.built)
  obtain ⟨-, -, -, -, s2, -, -, e2⟩ := Form.mk?_inv m0
  rw [hp] at s2
  obtain ⟨l1, l2, b, -⟩ := h.zrule hp
  obtain ⟨z1, -, z3⟩ := h.zshift hp hm hj
  obtain ⟨d1, d2, d3⟩ := h.dimsZ hp
  rw [Seq.dlamZ_get h.quad.wf (by rw [d2]; exact Nat.mod_lt _ (by omega)) (by rw [l1]; exact z1), Seq.dlamZ_get h.quad.wf (by rw [d2]; exact hi) (by rw [l1]; exact hj)]
  exact periodic_deriv_shift p3 p1 p2 p4 hm s2 e2 (b _ hj).1 (b _ hj).2 (b _ z1).1 (b _ z1).2 z3 hi

theorem diffZ_cyclic (hnt : ns.2.2 ≤ ns.2.1) {i j : Nat} (hi : i < ns.2.2) :
    D.S.diffZ ns.2.1 i j = D.S.dlamZ.get ((i + (ns.2.2 - 1)) % ns.2.2) j - D.S.dlamZ.get i j := by
  obtain ⟨p1, p2, p3, p4, p5⟩ := h.periodicZ hp
  obtain ⟨d1, d2, d3⟩ := h.dimsZ hp
  unfold Seq.diffZ
  simp only []
  congr 1
  split
  · rw [Nat.mod_eq_sub_mod (by omega), Nat.mod_eq_of_lt (by omega)]
    congr 1
    omega
  · rw [show i = 0 by omega, Nat.zero_add, Nat.mod_eq_of_lt (by omega)]
    have : D.S.dlamZ.rows = ns.2.2 := by rw [← d2]; exact h.quad.wf.f0.dz
    unfold Table.get
    rw [this, Nat.min_eq_right (by omega), Nat.min_self]

theorem diffZ_shift (hnt : ns.2.2 ≤ ns.2.1) {m : Nat} (hm : m < ns.2.2) {i j : Nat} (hi : i < ns.2.2) (hj : j < ns.2.2 * q) :
    D.S.diffZ ns.2.1 ((i + m) % ns.2.2) ((j + m * q) % (ns.2.2 * q)) = D.S.diffZ ns.2.1 i j := by
  rw [h.diffZ_cyclic hp hnt hi, h.diffZ_cyclic hp hnt (Nat.mod_lt _ (by omega)), h.dlamZ_shift hp hm hi hj]
  have : ((i + m) % ns.2.2 + (ns.2.2 - 1)) % ns.2.2 = ((i + (ns.2.2 - 1)) % ns.2.2 + m) % ns.2.2 := by
    rw [Nat.mod_add_mod, Nat.mod_add_mod]
    congr 1
    omega
  rw [this, h.dlamZ_shift hp hm (Nat.mod_lt _ (by omega)) hj]

/-! ## Points and weights -/

theorem nq_dvd : ns.2.2 * q ∣ D.nq := by
  rw [DeRham.nq, h.quad.len, Seq.nq, (h.zrule hp).1]
  exact Dvd.intro_left _ rfl

theorem unravelQuad_shift {m j : Nat} (hj : j < D.nq) : D.S.unravelQuad (shiftIndex (ns.2.2 * q) (m * q) j) =
    ((D.S.unravelQuad j).1, (D.S.unravelQuad j).2.1, ((D.S.unravelQuad j).2.2 + m * q) % (ns.2.2 * q)) ∧ (D.S.unravelQuad j).2.2 < ns.2.2 * q := by
  obtain ⟨p1, p2, p3, p4, p5⟩ := h.periodicZ hp
  obtain ⟨l1, l2, b, -⟩ := h.zrule hp
  have hz : 0 < ns.2.2 * q := Nat.mul_pos (by omega) (by omega)
  rw [DeRham.nq, h.quad.len, Seq.nq, l1] at hj
  unfold Seq.unravelQuad
  simp only []
  rw [l1, unravel3_shift hz hj]
  exact ⟨rfl, unravel3_lt hz _ _ _⟩

theorem shift_lt_nq {m j : Nat} (hj : j < D.nq) : shiftIndex (ns.2.2 * q) (m * q) j < D.nq := by
  obtain ⟨p1, p2, p3, p4, p5⟩ := h.periodicZ hp
  exact shiftIndex_lt (Nat.mul_pos (by omega) (by omega)) (h.nq_dvd hp) hj

theorem w_eq {j : Nat} (hj : j < D.nq) : D.w j = D.S.Q.wx.getD (D.S.unravelQuad j).1 0 * D.S.Q.wy.getD (D.S.unravelQuad j).2.1 0 * D.S.Q.wz.getD (D.S.unravelQuad j).2.2 0 := by
  obtain ⟨m0, -, -, -, hQ⟩ := Seq.mk?_inv (seq h.built)
  obtain ⟨-, -, s0, s1, s2, d0, d1, d2⟩ := Form.mk?_inv m0
  have hj' := hj
  rw [DeRham.nq, h.quad.len] at hj'
  unfold Quad.Rule.mk? at hQ
  split at hQ
  case h_2 => cases hQ
  rename_i rx ry rz hx hy hz'
  have hQ' := Except.ok.inj hQ
  obtain ⟨-, -, a3, -⟩ := h.r.facts h.q10 s0 d0 hx
  obtain ⟨-, -, b3, -⟩ := h.t.facts h.q10 s1 d1 hy
  obtain ⟨-, -, c3, -⟩ := h.z.facts h.q10 s2 d2 hz'
  obtain ⟨u1, u2, u3, u4⟩ := D.S.unravelQuad_spec hj'
  generalize D.S.unravelQuad j = u at *
  unfold DeRham.w
  rw [← hQ'] at u1 u2 u3 u4 ⊢
  have := ((C14_tensor_rule_order rx ry rz a3 b3 c3).2.2 u.1 u.2.1 u.2.2 u1 u2 u3).2
  change (u.2.1 * rx.1.length + u.1) * rz.1.length + u.2.2 = j at u4
  rw [u4] at this
  change u.1 < rx.1.length at u1
  change u.2.1 < ry.1.length at u2
  change u.2.2 < rz.1.length at u3
  rw [List.getD_eq_getElem?_getD, this]
  change _ = rx.2.getD _ 0 * ry.2.getD _ 0 * rz.2.getD _ 0
  rw [List.getD_eq_getElem?_getD, List.getD_eq_getElem?_getD, List.getD_eq_getElem?_getD, List.getElem?_eq_getElem (by omega), List.getElem?_eq_getElem (by omega),
    List.getElem?_eq_getElem (by omega)]
  rfl

theorem w_shift {m : Nat} (hm : m < ns.2.2) {j : Nat} (hj : j < D.nq) : D.w (shiftIndex (ns.2.2 * q) (m * q) j) = D.w j := by
  obtain ⟨u1, u2⟩ := h.unravelQuad_shift hp (m := m) hj
  rw [h.w_eq hp hj, h.w_eq hp (h.shift_lt_nq hp hj), u1, (h.zshift hp hm u2).2.1]

theorem x_shift {m : Nat} (hm : m < ns.2.2) {j : Nat} (hj : j < D.nq) :
    D.x (shiftIndex (ns.2.2 * q) (m * q) j) = ![D.x j 0, D.x j 1, D.x j 2 + (m : ℝ) / (ns.2.2 : ℝ)] ∨
      D.x (shiftIndex (ns.2.2 * q) (m * q) j) = ![D.x j 0, D.x j 1, D.x j 2 + ((m : ℝ) / (ns.2.2 : ℝ) - 1)] := by
  obtain ⟨u1, u2⟩ := h.unravelQuad_shift hp (m := m) hj
  have e : ∀ {j}, j < D.nq → D.x j = toV3 (D.S.Q.xx.getD (D.S.unravelQuad j).1 0, D.S.Q.xy.getD (D.S.unravelQuad j).2.1 0, D.S.Q.xz.getD (D.S.unravelQuad j).2.2 0) := by
    intro j hj
    rw [DeRham.nq, h.quad.len] at hj
    rw [← Seq.point_eq D.S h.quad.tensor hj]
    rfl
  rw [e hj, e (h.shift_lt_nq hp hj), u1]
  rcases (h.zshift hp hm u2).2.2 with z | z
  · left; simp only [toV3, z]; rfl
  · right; simp only [toV3, z, add_sub_assoc]; rfl

/-! ## The metric -/

variable {m : Nat} (hm : m < ns.2.2) {R R0 : M33} (hs : IsSymmetric F ((m : ℝ) / (ns.2.2 : ℝ)) R) (h0 : IsSymmetric F 1 R0)
include hm hs h0

theorem jac_shift {j : Nat} (hj : j < D.nq) : ∃ Q : M33, (Q = R ∨ Q = R0ᵀ * R) ∧ IsRotation Q ∧ jacfwd F (D.x (shiftIndex (ns.2.2 * q) (m * q) j)) = Q * jacfwd F (D.x j) := by
  rcases h.x_shift hp hm hj with e | e
  · rw [e]; exact ⟨R, Or.inl rfl, hs.1, jacfwd_shift hs _⟩
  · rw [e]; exact ⟨R0ᵀ * R, Or.inr rfl, (symmetric_back hs h0).1, jacfwd_shift (symmetric_back hs h0) _⟩

theorem metric_shift {j : Nat} (hj : j < D.nq) : D.g.J (shiftIndex (ns.2.2 * q) (m * q) j) = D.g.J j ∧ D.g.G (shiftIndex (ns.2.2 * q) (m * q) j) = D.g.G j ∧
    D.g.Ginv (shiftIndex (ns.2.2 * q) (m * q) j) = D.g.Ginv j := by
  obtain ⟨hg, -⟩ := metric h.built
  obtain ⟨Q, -, hQ, e⟩ := h.jac_shift hp hm hs h0 hj
  have ex : ∀ {j}, j < D.nq → (D.S.Q.x.map toV3).getD j 0 = D.x j := by
    intro j hj
    rw [List.getD_eq_getElem?_getD, (h.pointAt hj).1]; rfl
  have eG : (Q * jacfwd F (D.x j))ᵀ * (Q * jacfwd F (D.x j)) = (jacfwd F (D.x j))ᵀ * jacfwd F (D.x j) := by
    rw [transpose_mul, Matrix.mul_assoc, ← Matrix.mul_assoc Qᵀ, hQ.orth, Matrix.one_mul]
  rw [hg]
  simp only [Metric.ofMap, jacobianDeterminant]
  rw [ex hj, ex (h.shift_lt_nq hp hj), e, eG]
  exact ⟨by rw [det_mul, hQ.det, one_mul], rfl, rfl⟩

end Admissible
end Mrx
