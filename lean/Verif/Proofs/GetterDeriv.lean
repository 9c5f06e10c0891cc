import Verif.Proofs.Getters
import Verif.Props.Splines2
import Verif.Spec.Calculus

/-! # Tabulated derivatives -/

set_option linter.unusedSectionVars false

namespace Mrx
open Finset Jax Quad Props Spec

section Generic
variable {K : Type*} [Field K] [LinearOrder K] [IsStrictOrderedRing K]

/-- Points of the composite rule are not multiples of the element size. -/
theorem composite_not_grid (m k : Nat) (hm : 1 ≤ m) (h1 : 1 ≤ k) (h2 : k ≤ 10) (x : K)
    (hx : x ∈ (compositeQuad (Jax.linspace01 K (m + 1)) k).1) (z : Int) : x ≠ (z : K) / (m : K) := by
  have hm' : (0 : K) < (m : K) := by exact_mod_cast (by omega : 0 < m)
  have hcount := C11_composite_counts (Jax.linspace01 K (m+1)) k h1 h2
  rw [length_linspace01, Nat.add_sub_cancel] at hcount
  obtain ⟨j, hj, rfl⟩ := List.mem_iff_getElem.mp hx
  rw [hcount.1] at hj
  have hjk : j / k < m := Nat.div_lt_of_lt_mul (by rwa [Nat.mul_comm])
  obtain ⟨x, w, hx1, _, hlo, hhi, _⟩ := C11_composite_points_inside _ (linspace01_pairwise (K := K) (m+1)) k h1 h2 (j / k)
    (j % k) (by rw [length_linspace01]; omega) (Nat.mod_lt _ (by omega))
  rw [Nat.div_add_mod' j k, List.getElem?_eq_getElem (by omega)] at hx1
  obtain rfl := Option.some.inj hx1
  rw [getElem_linspace01] at hlo hhi
  rw [Nat.add_sub_cancel] at hlo hhi
  intro hc
  rw [hc] at hlo hhi
  rw [div_lt_div_iff_of_pos_right hm'] at hlo hhi
  generalize j / k = e at hlo hhi
  have a : (e : Int) < z := by
    have : ((e : Int) : K) < (z : K) := by rw [Int.cast_natCast]; exact hlo
    exact Int.cast_lt.mp this
  have b : z < ((e + 1 : Nat) : Int) := by
    have : (z : K) < (((e + 1 : Nat) : Int) : K) := by rw [Int.cast_natCast]; exact hhi
    exact Int.cast_lt.mp this
  omega

end Generic

/-- What the constructors guarantee about one direction, for the derivative statement.
`D i` is the tabulated `d(x, i-1) - d(x, i)`. -/
theorem clamped_dir {n p k : Nat} {s : SplineBasis ℝ} {d : DerivativeSpline ℝ}
    (hs : SplineBasis.mk? n p "clamped" = .ok s) (hd : DerivativeSpline.mk? s = .ok d)
    (hpn : p < n) (hfine : n - p ≤ 99900) (h1 : 1 ≤ k) (h2 : k ≤ 10) {xw : List ℝ × List ℝ}
    (hq : selectQuadrature s k = .ok xw) {x : ℝ} (hx : x ∈ xw.1) {i : Nat} (hi : i < n) :
    HasDerivAt (fun y => s.evaluate y i)
      ((if i = 0 then 0 else d.evaluate x ((i - 1 : Nat) : Int))
        - (if i = n - 1 then 0 else d.evaluate x i)) x := by
  have hp : 1 ≤ p := by
    by_contra hc
    have h0 : p = 0 := by omega
    subst h0
    rw [of_mk?_clamped hpn hs] at hd
    simp [DerivativeSpline.mk?] at hd
  obtain ⟨xs, ws, e1, e2, _, _, hin, _⟩ := C11_select_rule n p hp "clamped" (n - p)
    (Or.inl ⟨rfl, hpn, rfl⟩) s hs k h1 h2
  rw [hq] at e1
  obtain rfl := Except.ok.inj e1
  have hxin := hin x hx
  have hk : x ∉ s.T := by
    intro hc
    rw [of_mk?_clamped hpn hs] at hc
    obtain ⟨l, hl⟩ := mem_get_of_mem hc
    rw [get_clampedList n p hpn] at hl
    obtain ⟨_, z, hz⟩ := clampedKnot_grid (K := ℝ) n p l hpn
    have hx' : x ∈ (compositeQuad (Jax.linspace01 ℝ (n - p + 1)) k).1 := by rw [← e2]; exact hx
    exact composite_not_grid (n - p) k (by omega) h1 h2 x hx' z (by rw [hl, hz])
  have h := C07_clamped_derivative n p hp hpn hfine s hs d hd x hxin.2 hk i hi
  refine h.congr_deriv ?_
  congr 1
  · split
    · rfl
    · congr 1; omega
  · split
    · rename_i h; 
      rw [of_mk?_clamped hpn hs, mk?_deriv_clamped n p hp hpn] at hd
      obtain rfl := Except.ok.inj hd
      simp [DerivativeSpline.evaluate]; omega
    · rfl

theorem angular_dir {n p k : Nat} {ty : String} (hty : ty = "periodic" ∨ ty = "constant")
    {s : SplineBasis ℝ} {d : DerivativeSpline ℝ}
    (hs : SplineBasis.mk? n p ty = .ok s) (hd : DerivativeSpline.mk? s = .ok d)
    (hfine : n ≤ 49975) (h1 : 1 ≤ k) (h2 : k ≤ 10) {xw : List ℝ × List ℝ}
    (hq : selectQuadrature s k = .ok xw) {x : ℝ} (hx : x ∈ xw.1) {i : Nat} (hi : i < n) :
    HasDerivAt (fun y => s.evaluate y i)
      ((if 0 < i then d.evaluate x ((i - 1 : Nat) : Int) else d.evaluate x ((n - 1 : Nat) : Int))
        - d.evaluate x i) x := by
  rcases hty with rfl | rfl
  · have hacc := ((C09_constructor_accepts_iff (K := ℝ) n p "periodic").mp ⟨s, hs⟩).2
    have hp : 1 ≤ p := by
      by_contra hc
      have h0 : p = 0 := by omega
      subst h0
      rw [of_mk?_periodic hacc hs] at hd
      simp [DerivativeSpline.mk?] at hd
    have hn : 1 ≤ n := by omega
    obtain ⟨xs, ws, e1, e2, _, _, hin, _⟩ := C11_select_rule n p hp "periodic" n
      (Or.inr ⟨rfl, hn, hacc, rfl⟩) s hs k h1 h2
    rw [hq] at e1
    obtain rfl := Except.ok.inj e1
    have hxin := hin x hx
    have hk : x ∉ s.T := by
      intro hc
      rw [of_mk?_periodic hacc hs] at hc
      obtain ⟨l, hl, hl2⟩ := List.mem_iff_getElem.mp hc
      rw [getElem_periodicList n p (by omega) hn] at hl2
      have hx' : x ∈ (compositeQuad (Jax.linspace01 ℝ (n + 1)) k).1 := by rw [← e2]; exact hx
      refine composite_not_grid n k (by omega) h1 h2 x hx' ((l : Int) - p) ?_
      rw [← hl2]; unfold periodicKnot; push_cast; rfl
    have h := C07_periodic_derivative n p hp hn hacc hfine s hs d hd x hxin.1 hxin.2 hk i hi
    refine h.congr_deriv ?_
    congr 1
    split
    · congr 1; omega
    · have : i = 0 := by omega
      subst this
      rw [of_mk?_periodic hacc hs, mk?_deriv_periodic n p hp hn hacc] at hd
      obtain rfl := Except.ok.inj hd
      have : ((((0 : Nat) : Int) - 1) + n) % (n : Int) = (((n - 1 : Nat) : Int) + n) % (n : Int) := by
        rw [show (((0 : Nat) : Int) - 1) + n = ((n - 1 : Nat) : Int) by omega,
          Int.add_emod_right]
      simp only [DerivativeSpline.evaluate, show ¬ ("periodic" = "clamped") by decide, if_false, if_true, this]
  · have hty : s.type = "constant" := (Form.spline_mk?_ok hs).2.2
    have hdt : d.type = "constant" := by
      unfold DerivativeSpline.mk? at hd
      rw [if_neg (by simp [hty])] at hd
      split at hd
      · cases hd
      · cases hd; exact hty
    have e1 : ∀ y i, s.evaluate y i = 1 := by
      intro y i; unfold SplineBasis.evaluate; simp [hty]
    have e2 : ∀ y i, d.evaluate y i = 1 := by
      intro y i; unfold DerivativeSpline.evaluate; simp [hdt]
    simp only [e1, e2, ite_self, sub_self]
    exact hasDerivAt_const x 1

end Mrx

namespace Mrx
open Finset Jax Quad Props Spec

namespace Seq
variable {K : Type*} [Field K] [LinearOrder K]

/-- The difference of tabulated radial derivative splines that the radial derivative of spline `i` is. -/
def trueDiffR (S : Seq K) (i j : Nat) : K :=
  (if i = 0 then 0 else S.dlamR.get (i - 1) j) - (if i = S.L0.dims.nr - 1 then 0 else S.dlamR.get i j)

def trueDiffT (S : Seq K) (i j : Nat) : K :=
  (if 0 < i then S.dlamT.get (i - 1) j else S.dlamT.get (S.L0.dims.nt - 1) j) - S.dlamT.get i j

def trueDiffZ (S : Seq K) (i j : Nat) : K :=
  (if 0 < i then S.dlamZ.get (i - 1) j else S.dlamZ.get (S.L0.dims.nz - 1) j) - S.dlamZ.get i j

theorem diffR_eq (S : Seq K) {nt i j : Nat} (h : i = S.L0.dims.nr - 1 ↔ i = nt - 1) (hnt : 1 ≤ nt) :
    S.diffR nt i j = S.trueDiffR i j := by
  unfold diffR trueDiffR
  have e1 : ((i : Int) = (nt : Int) - 1) ↔ i = S.L0.dims.nr - 1 := by omega
  have e2 : (0 < i) ↔ ¬ i = 0 := by omega
  simp only [e1, e2, ite_not]

theorem diffT_eq (S : Seq K) (i j : Nat) : S.diffT S.L0.dims.nt i j = S.trueDiffT i j := rfl

theorem diffZ_eq (S : Seq K) (hw : S.WF) {nt i j : Nat} (h : S.L0.dims.nz ≤ nt)
    (hz : S.L0.dims.dz = S.L0.dims.nz) : S.diffZ nt i j = S.trueDiffZ i j := by
  unfold diffZ trueDiffZ
  have : S.dlamZ.get (nt - 1) j = S.dlamZ.get (S.L0.dims.nz - 1) j := by
    unfold dlamZ Table.get
    simp only [hw.f0.dz, hz]
    rw [show min (nt - 1) (S.L0.dims.nz - 1) = min (S.L0.dims.nz - 1) (S.L0.dims.nz - 1) by omega]
  simp only [this]

/-- The 1-D derivative facts at the quadrature points. -/
structure DerivOK (S : Seq ℝ) : Prop where
  r : ∀ i < S.L0.dims.nr, ∀ j < S.Q.xx.length,
    HasDerivAt (fun y => S.L0.Λ0.evaluate y i) (S.trueDiffR i j) (S.Q.xx.getD j 0)
  t : ∀ i < S.L0.dims.nt, ∀ j < S.Q.xy.length,
    HasDerivAt (fun y => S.L0.Λ1.evaluate y i) (S.trueDiffT i j) (S.Q.xy.getD j 0)
  z : ∀ i < S.L0.dims.nz, ∀ j < S.Q.xz.length,
    HasDerivAt (fun y => S.L0.Λ2.evaluate y i) (S.trueDiffZ i j) (S.Q.xz.getD j 0)
  dr : S.L0.dims.dr = S.L0.dims.nr - 1
  dt : S.L0.dims.dt = S.L0.dims.nt
  dz : S.L0.dims.dz = S.L0.dims.nz

theorem derivOK {ns ps : Nat × Nat × Nat} {q : Nat} {tt tz : String} {S : Seq ℝ}
    (hS : Seq.mk? ns ps q ("clamped", tt, tz) = .ok S)
    (htt : tt = "periodic" ∨ tt = "constant") (htz : tz = "periodic" ∨ tz = "constant")
    (h1 : 1 ≤ q) (h2 : q ≤ 10) (hp : ps.1 < ns.1) (hr : ns.1 - ps.1 ≤ 99900)
    (ht : ns.2.1 ≤ 49975) (hz : ns.2.2 ≤ 49975) : S.DerivOK := by
  have hw := Seq.mk?_wf hS
  obtain ⟨m0, _, _, _, hQ⟩ := Seq.mk?_inv hS
  obtain ⟨_, hd, s0, s1, s2, d0, d1, d2⟩ := Form.mk?_inv m0
  have hdr : S.L0.dims.nr = ns.1 := by rw [hd]
  have hdt : S.L0.dims.nt = ns.2.1 := by rw [hd]
  have hdz : S.L0.dims.nz = ns.2.2 := by rw [hd]
  have edr : S.L0.dims.dr = S.L0.dims.nr - 1 := by rw [hd]; simp [Form.dsize]
  have edt : S.L0.dims.dt = S.L0.dims.nt := by
    rw [hd]; rcases htt with rfl | rfl <;> simp [Form.dsize]
  have edz : S.L0.dims.dz = S.L0.dims.nz := by
    rw [hd]; rcases htz with rfl | rfl <;> simp [Form.dsize]
  unfold Quad.Rule.mk? at hQ
  split at hQ
  case h_2 => cases hQ
  rename_i rx ry rz hx hy hz'
  have hQ' := Except.ok.inj hQ
  have exx : S.Q.xx = rx.1 := by rw [← hQ']; rfl
  have exy : S.Q.xy = ry.1 := by rw [← hQ']; rfl
  have exz : S.Q.xz = rz.1 := by rw [← hQ']; rfl
  have mem : ∀ (l : List ℝ) j, j < l.length → l.getD j 0 ∈ l := by
    intro l j hj
    rw [List.getD_eq_getElem?_getD, List.getElem?_eq_getElem hj]; exact List.getElem_mem _
  refine ⟨?_, ?_, ?_, edr, edt, edz⟩
  · intro i hi j hj
    have h := clamped_dir s0 d0 hp hr h1 h2 hx (mem rx.1 j (exx ▸ hj)) (hdr ▸ hi)
    rw [exx]
    refine h.congr_deriv ?_
    unfold trueDiffR
    congr 1
    · split
      · rfl
      · rw [dlamR_get hw (by omega) hj, exx]
    · rw [hdr]
      split
      · rfl
      · rw [dlamR_get hw (by omega) hj, exx]
  · intro i hi j hj
    have h := angular_dir htt s1 d1 ht h1 h2 hy (mem ry.1 j (exy ▸ hj)) (hdt ▸ hi)
    rw [exy]
    refine h.congr_deriv ?_
    unfold trueDiffT
    rw [dlamT_get hw (i := i) (by omega) hj, dlamT_get hw (i := i - 1) (by omega) hj,
      dlamT_get hw (i := S.L0.dims.nt - 1) (by omega) hj, exy, hdt]
  · intro i hi j hj
    have h := angular_dir htz s2 d2 hz h1 h2 hz' (mem rz.1 j (exz ▸ hj)) (hdz ▸ hi)
    rw [exz]
    refine h.congr_deriv ?_
    unfold trueDiffZ
    rw [dlamZ_get hw (i := i) (by omega) hj, dlamZ_get hw (i := i - 1) (by omega) hj,
      dlamZ_get hw (i := S.L0.dims.nz - 1) (by omega) hj, exz, hdz]

end Seq
end Mrx
