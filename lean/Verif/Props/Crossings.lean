import Verif.Props.Poincare

/-!
# C71: which points of a Poincaré section are true crossings

`poincare_plot` wraps the field line into the unit cube before it looks for crossings. These theorems say for which pairs of
consecutive samples this is right, for which a crossing is invented, for which one is missed, and for which the reported
point is a point of the field line modulo one.
-/

set_option linter.unusedVariables false

namespace Mrx.Props

/-- The line from `p` to `q` meets the plane: some point of it has the plane value modulo one. -/
def Crosses (pv : ℝ) (axis : Fin 3) (p q : V3) : Prop := ∃ x, OnSegment p q x ∧ Int.fract (x axis) = pv

/-- The section reports a crossing between the samples `p` and `q`. -/
def Reported (pv : ℝ) (axis : Fin 3) (p q : V3) : Prop :=
  ((poincareIntersections pv axis [p, q])[0]?).map Prod.fst = some true

/-- **C71** the entries of the section of a trajectory are those of its pairs of consecutive samples. -/
theorem C71_entries (pv : ℝ) (axis : Fin 3) (traj : List V3) (i : Nat) (hi : i + 1 < traj.length) :
    (poincareIntersections pv axis traj)[i]? = (poincareIntersections pv axis [traj[i], traj[i + 1]])[0]? ∧
    (poincareIntersections pv axis traj).length = traj.length - 1 := by
  simp [poincareIntersections, trajectoryIntersections, List.getElem?_zipWith, List.getElem?_tail, hi,
    show i < traj.length by omega]

theorem reported_iff {pv : ℝ} (h0 : 0 < pv) (axis : Fin 3) (p q : V3) : Reported pv axis p q ↔
    (Int.fract (p axis) - pv) * (Int.fract (q axis) - pv) ≤ 0 := by
  simp [Reported, poincareIntersections, trajectoryIntersections, segmentIntersection, planeDiff, h0.ne']

/-- A point of the segment with a given coordinate. -/
theorem onSegment_coord {p q : V3} {axis : Fin 3} {a : ℝ} (h : (p axis ≤ a ∧ a ≤ q axis) ∨ (q axis ≤ a ∧ a ≤ p axis)) :
    ∃ x, OnSegment p q x ∧ x axis = a := by
  by_cases he : q axis = p axis
  · refine ⟨p, ⟨0, le_rfl, zero_le_one, by simp⟩, ?_⟩
    rw [he] at h
    rcases h with h | h <;> linarith [h.1, h.2]
  · have hd : q axis - p axis ≠ 0 := sub_ne_zero.2 he
    refine ⟨p + ((a - p axis) / (q axis - p axis)) • (q - p), ⟨_, ?_, ?_, rfl⟩, ?_⟩
    · rcases h with h | h
      · exact div_nonneg (by linarith) (by linarith)
      · exact div_nonneg_of_nonpos (by linarith) (by linarith)
    · rcases h with h | h
      · exact (div_le_one (lt_of_le_of_ne (by linarith) hd.symm)).2 (by linarith)
      · exact (div_le_one_of_neg (lt_of_le_of_ne (by linarith) hd)).2 (by linarith)
    · simp only [Pi.add_apply, Pi.smul_apply, Pi.sub_apply, smul_eq_mul]
      rw [div_mul_cancel₀ _ hd]; ring

theorem segment_between {p q x : V3} (h : OnSegment p q x) (axis : Fin 3) :
    (p axis ≤ x axis ∧ x axis ≤ q axis) ∨ (q axis ≤ x axis ∧ x axis ≤ p axis) := by
  obtain ⟨t, t0, t1, rfl⟩ := h
  simp only [Pi.add_apply, Pi.smul_apply, Pi.sub_apply, smul_eq_mul]
  rcases le_total (p axis) (q axis) with hl | hl
  · left; constructor <;> nlinarith
  · right; constructor <;> nlinarith

/-- A segment meets the plane exactly if one of the translates of the plane value is between the coordinates of its ends. -/
theorem crosses_iff {pv : ℝ} (h0 : 0 ≤ pv) (h1 : pv < 1) (axis : Fin 3) (p q : V3) : Crosses pv axis p q ↔
    ∃ n : Int, (p axis ≤ pv + n ∧ pv + n ≤ q axis) ∨ (q axis ≤ pv + n ∧ pv + n ≤ p axis) := by
  constructor
  · rintro ⟨x, hx, hf⟩
    refine ⟨⌊x axis⌋, ?_⟩
    rw [← hf, Int.fract_add_floor]
    exact segment_between hx axis
  · rintro ⟨n, hn⟩
    obtain ⟨x, hx, he⟩ := onSegment_coord hn
    refine ⟨x, hx, ?_⟩
    rw [he, Int.fract_add_intCast, Int.fract_eq_self.2 ⟨h0, h1⟩]

theorem crosses_symm {pv : ℝ} (h0 : 0 ≤ pv) (h1 : pv < 1) (axis : Fin 3) (p q : V3) : Crosses pv axis p q ↔ Crosses pv axis q p := by
  rw [crosses_iff h0 h1, crosses_iff h0 h1]
  exact exists_congr fun n => Or.comm

/-- Crossings in terms of the wrapped coordinates, upward. -/
theorem crosses_up {pv : ℝ} (h0 : 0 < pv) (h1 : pv < 1) (axis : Fin 3) (p q : V3) (hk : ⌊p axis⌋ ≤ ⌊q axis⌋) :
    Crosses pv axis p q ↔
      (⌊p axis⌋ = ⌊q axis⌋ ∧ (Int.fract (p axis) - pv) * (Int.fract (q axis) - pv) ≤ 0) ∨
      (⌊q axis⌋ = ⌊p axis⌋ + 1 ∧ (Int.fract (p axis) ≤ pv ∨ pv ≤ Int.fract (q axis))) ∨ ⌊p axis⌋ + 2 ≤ ⌊q axis⌋ := by
  rw [crosses_iff h0.le h1]
  have ep := Int.fract_add_floor (p axis)
  have eq' := Int.fract_add_floor (q axis)
  have p0 := Int.fract_nonneg (p axis)
  have q0 := Int.fract_nonneg (q axis)
  have p1 := Int.fract_lt_one (p axis)
  have q1 := Int.fract_lt_one (q axis)
  generalize Int.fract (p axis) = s at *
  generalize Int.fract (q axis) = u at *
  generalize ⌊p axis⌋ = a at *
  generalize ⌊q axis⌋ = b at *
  generalize p axis = P at *
  generalize q axis = Q at *
  subst ep; subst eq'
  obtain ⟨k, rfl⟩ : ∃ k : Nat, b = a + k := ⟨(b - a).toNat, by omega⟩
  rcases k with _ | _ | k
  · simp only [Nat.cast_zero, add_zero, true_and]
    have no : ¬ (a = a + 1) := by omega
    have no2 : ¬ (a + 2 ≤ a) := by omega
    simp only [no, no2, false_and, or_false]
    constructor
    · rintro ⟨n, hn⟩
      have hna : n = a := by
        have u1 : (n : ℝ) < a + 1 := by rcases hn with h | h <;> linarith [h.1, h.2]
        have u2 : (a : ℝ) < n + 1 := by rcases hn with h | h <;> linarith [h.1, h.2]
        have u1' : n < a + 1 := by exact_mod_cast u1
        have u2' : a < n + 1 := by exact_mod_cast u2
        omega
      subst hna
      rcases hn with h | h
      · nlinarith [mul_nonneg (show 0 ≤ pv - s by linarith [h.1]) (show 0 ≤ u - pv by linarith [h.2])]
      · nlinarith [mul_nonneg (show 0 ≤ s - pv by linarith [h.2]) (show 0 ≤ pv - u by linarith [h.1])]
    · intro h
      refine ⟨a, ?_⟩
      rcases mul_nonpos_iff.1 h with h | h
      · right; constructor <;> linarith [h.1, h.2]
      · left; constructor <;> linarith [h.1, h.2]
  · have no : ¬ (a = a + 1) := by omega
    have no2 : ¬ (a + 2 ≤ a + 1) := by omega
    have ye : a + ((0 + 1 : Nat) : Int) = a + 1 := by omega
    rw [ye]
    simp only [no, no2, false_and, or_false, false_or, true_and]
    push_cast
    constructor
    · rintro ⟨n, hn⟩
      by_contra hc'
      have hc : pv < s ∧ u < pv := ⟨lt_of_not_ge fun z => hc' (Or.inl z), lt_of_not_ge fun z => hc' (Or.inr z)⟩
      have u1 : (a : ℝ) < n := by rcases hn with h | h <;> linarith [h.1, h.2]
      have u2 : (n : ℝ) < a + 1 := by rcases hn with h | h <;> linarith [h.1, h.2]
      have u1' : a < n := by exact_mod_cast u1
      have u2' : n < a + 1 := by exact_mod_cast u2
      omega
    · rintro (h | h)
      · exact ⟨a, Or.inl ⟨by linarith, by linarith⟩⟩
      · exact ⟨a + 1, Or.inl ⟨by push_cast; linarith, by push_cast; linarith⟩⟩
  · have ye : a + 2 ≤ a + ((k + 1 + 1 : Nat) : Int) := by push_cast; omega
    simp only [ye, or_true, iff_true]
    refine ⟨a + 1, Or.inl ⟨by push_cast; linarith, ?_⟩⟩
    have : (0 : ℝ) ≤ k := Nat.cast_nonneg k
    push_cast
    linarith

/-- **C71** if the section coordinate does not wrap between two samples, a crossing is reported exactly if there is one. -/
theorem C71_no_wrap {pv : ℝ} (h0 : 0 < pv) (h1 : pv < 1) (axis : Fin 3) (p q : V3) (hk : ⌊p axis⌋ = ⌊q axis⌋) :
    Reported pv axis p q ↔ Crosses pv axis p q := by
  rw [reported_iff h0, crosses_up h0 h1 axis p q hk.le]
  constructor
  · exact fun h => Or.inl ⟨hk, h⟩
  · rintro (⟨-, h⟩ | ⟨h, -⟩ | h)
    · exact h
    · omega
    · omega

/-- **C71** exactly when a crossing is invented: the coordinate wraps once, and the plane value is passed on neither side of
the wrap. -/
theorem C71_invented_iff {pv : ℝ} (h0 : 0 < pv) (h1 : pv < 1) (axis : Fin 3) (p q : V3) :
    (Reported pv axis p q ∧ ¬ Crosses pv axis p q) ↔
      (⌊q axis⌋ = ⌊p axis⌋ + 1 ∧ Int.fract (q axis) < pv ∧ pv < Int.fract (p axis)) ∨
      (⌊p axis⌋ = ⌊q axis⌋ + 1 ∧ Int.fract (p axis) < pv ∧ pv < Int.fract (q axis)) := by
  have key : ∀ p q : V3, ⌊p axis⌋ ≤ ⌊q axis⌋ → ((Reported pv axis p q ∧ ¬ Crosses pv axis p q) ↔
      (⌊q axis⌋ = ⌊p axis⌋ + 1 ∧ Int.fract (q axis) < pv ∧ pv < Int.fract (p axis))) := by
    intro p q hk
    rw [reported_iff h0, crosses_up h0 h1 axis p q hk]
    constructor
    · rintro ⟨hr, hc⟩
      push Not at hc
      obtain ⟨c1, c2, c3⟩ := hc
      have hk1 : ⌊q axis⌋ = ⌊p axis⌋ + 1 := by
        rcases eq_or_ne ⌊p axis⌋ ⌊q axis⌋ with e | e
        · exact absurd hr (not_le.2 (c1 e))
        · omega
      exact ⟨hk1, (c2 hk1).2, (c2 hk1).1⟩
    · rintro ⟨hk1, a, b⟩
      refine ⟨mul_nonpos_of_nonneg_of_nonpos (by linarith) (by linarith), ?_⟩
      rintro (⟨c, -⟩ | ⟨-, c | c⟩ | c)
      · omega
      · linarith
      · linarith
      · omega
  rcases le_total ⌊p axis⌋ ⌊q axis⌋ with hk | hk
  · rw [key p q hk]
    have no : ¬ (⌊p axis⌋ = ⌊q axis⌋ + 1) := by omega
    simp only [no, false_and, or_false]
  · have e : Reported pv axis p q ↔ Reported pv axis q p := by
      rw [reported_iff h0, reported_iff h0, mul_comm]
    rw [e, crosses_symm h0.le h1, key q p hk]
    have no : ¬ (⌊q axis⌋ = ⌊p axis⌋ + 1) := by omega
    simp only [no, false_and, false_or]

/-- **C71** exactly when crossings are missed: the coordinate wraps and ends on the side of the plane value it started
from. -/
theorem C71_missed_iff {pv : ℝ} (h0 : 0 < pv) (h1 : pv < 1) (axis : Fin 3) (p q : V3) :
    (Crosses pv axis p q ∧ ¬ Reported pv axis p q) ↔ ⌊p axis⌋ ≠ ⌊q axis⌋ ∧
      ((Int.fract (p axis) < pv ∧ Int.fract (q axis) < pv) ∨ (pv < Int.fract (p axis) ∧ pv < Int.fract (q axis))) := by
  have hrep : ∀ p q : V3, ¬ Reported pv axis p q ↔
      ((Int.fract (p axis) < pv ∧ Int.fract (q axis) < pv) ∨ (pv < Int.fract (p axis) ∧ pv < Int.fract (q axis))) := by
    intro p q
    rw [reported_iff h0, not_le, mul_pos_iff, sub_pos, sub_pos, sub_neg, sub_neg, or_comm]
  have key : ∀ p q : V3, ⌊p axis⌋ ≤ ⌊q axis⌋ → ((Crosses pv axis p q ∧ ¬ Reported pv axis p q) ↔ ⌊p axis⌋ ≠ ⌊q axis⌋ ∧
      ((Int.fract (p axis) < pv ∧ Int.fract (q axis) < pv) ∨ (pv < Int.fract (p axis) ∧ pv < Int.fract (q axis)))) := by
    intro p q hk
    constructor
    · rintro ⟨hc, hr⟩
      exact ⟨fun e => hr ((C71_no_wrap h0 h1 axis p q e).2 hc), (hrep p q).1 hr⟩
    · rintro ⟨hne, hs⟩
      refine ⟨(crosses_up h0 h1 axis p q hk).2 ?_, (hrep p q).2 hs⟩
      right
      rcases eq_or_ne ⌊q axis⌋ (⌊p axis⌋ + 1) with e | e
      · left
        exact ⟨e, hs.elim (fun a => Or.inl a.1.le) (fun a => Or.inr a.2.le)⟩
      · right; omega
  rcases le_total ⌊p axis⌋ ⌊q axis⌋ with hk | hk
  · exact key p q hk
  · have e : Reported pv axis p q ↔ Reported pv axis q p := by
      rw [reported_iff h0, reported_iff h0, mul_comm]
    rw [e, crosses_symm h0.le h1, key q p hk, ne_comm, and_comm (a := Int.fract (q axis) < pv), and_comm (a := pv < Int.fract (q axis))]

/-- **C71** if the section coordinate does not wrap between the samples, exactly when the reported point `x` is a point of the
field line modulo one: with `t` the position of the crossing between the samples, `t` times the number of wraps of each other
coordinate must be an integer. -/
theorem C71_point_iff {pv : ℝ} (h0 : 0 < pv) (h1 : pv < 1) (axis : Fin 3) (p q x : V3) (m : Bool) (hk : ⌊p axis⌋ = ⌊q axis⌋)
    (h : poincareIntersections pv axis [p, q] = [(m, some x)]) :
    x axis = pv ∧ ∃ t : ℝ, 0 ≤ t ∧ t ≤ 1 ∧ Int.fract (p axis + t * (q axis - p axis)) = pv ∧
      ((∃ y, OnSegment p q y ∧ ∀ c, ∃ n : Int, y c = x c + n) ↔ ∀ c, ∃ n : Int, t * ((⌊q c⌋ - ⌊p c⌋ : Int) : ℝ) = n) := by
  simp only [poincareIntersections, trajectoryIntersections, List.map_cons, List.map_nil, List.tail_cons, List.zipWith_cons_cons,
    List.zipWith_nil_right, List.cons.injEq, and_true] at h
  have hne : Int.fract (p axis) ≠ Int.fract (q axis) := by
    intro he
    simp only [segmentIntersection, he, sub_self, if_true] at h
    split at h <;> simp at h
  obtain ⟨-, hx, t, t0, t1, he⟩ := C66_jit_sound h0.ne' axis _ _ _ _ h
  have hxc : ∀ c, x c = Int.fract (p c) + t * (Int.fract (q c) - Int.fract (p c)) := by
    intro c; rw [he]; rfl
  have hpq : ∀ c, Int.fract (p c) + t * (Int.fract (q c) - Int.fract (p c)) =
      p c + t * (q c - p c) - ⌊p c⌋ - t * ((⌊q c⌋ - ⌊p c⌋ : Int) : ℝ) := by
    intro c; simp only [Int.fract]; push_cast; ring
  have hax : p axis + t * (q axis - p axis) = pv + ⌊p axis⌋ := by
    have := hxc axis
    rw [hpq, hx, hk, sub_self, Int.cast_zero, mul_zero, sub_zero] at this
    rw [hk]; linarith
  refine ⟨hx, t, t0, t1, ?_, ?_⟩
  · rw [hax, Int.fract_add_intCast, Int.fract_eq_self.2 ⟨h0.le, h1⟩]
  constructor
  · rintro ⟨y, ⟨u, u0, u1, rfl⟩, hy⟩
    have hut : u = t := by
      obtain ⟨n, hn⟩ := hy axis
      simp only [Pi.add_apply, Pi.smul_apply, Pi.sub_apply, smul_eq_mul] at hn
      rw [hx] at hn
      have hs := segment_between (p := p) (q := q) (x := p + u • (q - p)) ⟨u, u0, u1, rfl⟩ axis
      simp only [Pi.add_apply, Pi.smul_apply, Pi.sub_apply, smul_eq_mul] at hs
      have f1 := Int.fract_nonneg (p axis)
      have f2 := Int.fract_lt_one (p axis)
      have g1 := Int.fract_nonneg (q axis)
      have g2 := Int.fract_lt_one (q axis)
      have ef := Int.fract_add_floor (p axis)
      have eg := Int.fract_add_floor (q axis)
      rw [← hk] at eg
      have b1 : (n : ℝ) < ⌊p axis⌋ + 1 := by rcases hs with s | s <;> linarith [s.1, s.2]
      have b2 : (⌊p axis⌋ : ℝ) < n + 1 := by rcases hs with s | s <;> linarith [s.1, s.2]
      have b1' : n < ⌊p axis⌋ + 1 := by exact_mod_cast b1
      have b2' : ⌊p axis⌋ < n + 1 := by exact_mod_cast b2
      have hnn : n = ⌊p axis⌋ := by omega
      rw [hnn] at hn
      have hd : q axis - p axis ≠ 0 := by
        intro hz
        exact hne (by rw [sub_eq_zero.1 hz])
      have : (u - t) * (q axis - p axis) = 0 := by linarith
      rcases mul_eq_zero.1 this with z | z
      · linarith
      · exact absurd z hd
    subst hut
    intro c
    obtain ⟨n, hn⟩ := hy c
    refine ⟨n - ⌊p c⌋, ?_⟩
    simp only [Pi.add_apply, Pi.smul_apply, Pi.sub_apply, smul_eq_mul] at hn
    rw [hxc c, hpq c] at hn
    push_cast at hn ⊢
    linarith
  · intro hint
    refine ⟨p + t • (q - p), ⟨t, t0, t1, rfl⟩, fun c => ?_⟩
    obtain ⟨n, hn⟩ := hint c
    refine ⟨⌊p c⌋ + n, ?_⟩
    simp only [Pi.add_apply, Pi.smul_apply, Pi.sub_apply, smul_eq_mul]
    rw [hxc c, hpq c, hn]
    push_cast
    ring

/-- Samples with an invented crossing, with a missed one, and with one that is right. -/
example : (Reported (1 / 2) 2 ![0, 0, 3 / 4] ![0, 0, 5 / 4] ∧ ¬ Crosses (1 / 2) 2 ![0, 0, 3 / 4] ![0, 0, 5 / 4]) ∧
    (Crosses (1 / 2) 2 ![0, 0, 1 / 4] ![0, 0, 5 / 4] ∧ ¬ Reported (1 / 2) 2 ![0, 0, 1 / 4] ![0, 0, 5 / 4]) ∧
    Crosses (1 / 2) 2 ![0, 0, 1 / 4] ![0, 0, 3 / 4] := by
  have f14 : ⌊(1 / 4 : ℝ)⌋ = 0 := Int.floor_eq_iff.2 (by norm_num)
  have f34 : ⌊(3 / 4 : ℝ)⌋ = 0 := Int.floor_eq_iff.2 (by norm_num)
  have f54 : ⌊(5 / 4 : ℝ)⌋ = 1 := Int.floor_eq_iff.2 (by norm_num)
  refine ⟨(C71_invented_iff (by norm_num) (by norm_num) 2 _ _).2 (Or.inl ?_), (C71_missed_iff (by norm_num) (by norm_num) 2 _ _).2 ?_,
    (C71_no_wrap (by norm_num) (by norm_num) 2 _ _ ?_).1 ((reported_iff (by norm_num) 2 _ _).2 ?_)⟩
  · show ⌊(5 / 4 : ℝ)⌋ = ⌊(3 / 4 : ℝ)⌋ + 1 ∧ (5 / 4 : ℝ) - ⌊(5 / 4 : ℝ)⌋ < 1 / 2 ∧ 1 / 2 < (3 / 4 : ℝ) - ⌊(3 / 4 : ℝ)⌋
    rw [f34, f54]; norm_num
  · show ⌊(1 / 4 : ℝ)⌋ ≠ ⌊(5 / 4 : ℝ)⌋ ∧ (((1 / 4 : ℝ) - ⌊(1 / 4 : ℝ)⌋ < 1 / 2 ∧ (5 / 4 : ℝ) - ⌊(5 / 4 : ℝ)⌋ < 1 / 2) ∨ _)
    rw [f14, f54]; norm_num
  · show ⌊(1 / 4 : ℝ)⌋ = ⌊(3 / 4 : ℝ)⌋
    rw [f14, f34]
  · show ((1 / 4 : ℝ) - ⌊(1 / 4 : ℝ)⌋ - 1 / 2) * ((3 / 4 : ℝ) - ⌊(3 / 4 : ℝ)⌋ - 1 / 2) ≤ 0
    rw [f14, f34]; norm_num

end Mrx.Props
