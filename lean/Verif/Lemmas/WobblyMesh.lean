import Verif.Lemmas.WobblyPhysics

/-! Auxiliary facts about reading the mesh: Bezier evaluation and extremes. -/

namespace Verif

theorem cRound_int (z : ℤ) : cRound (z : ℝ) = z := by
  unfold cRound
  split_ifs with h
  · have : ⌊(z : ℝ) + 1 / 2⌋ = z := by
      rw [Int.floor_eq_iff]
      constructor <;> norm_num
    rw [this]
  · have : ⌈(z : ℝ) - 1 / 2⌉ = z := by
      rw [Int.ceil_eq_iff]
      constructor <;> norm_num
    rw [this]

theorem cRound_isInt (x : ℝ) : ∃ z : ℤ, cRound x = z := by
  unfold cRound
  split_ifs
  · exact ⟨_, rfl⟩
  · exact ⟨_, rfl⟩

theorem cRound_idem (x : ℝ) : cRound (cRound x) = cRound x := by
  obtain ⟨z, hz⟩ := cRound_isInt x
  rw [hz, cRound_int]

theorem cRound_near (x : ℝ) : |cRound x - x| ≤ 1 / 2 := by
  unfold cRound
  split_ifs
  · have h1 := Int.floor_le (x + 1 / 2)
    have h2 := Int.lt_floor_add_one (x + 1 / 2)
    rw [abs_le]
    constructor <;> linarith
  · have h1 := Int.le_ceil (x - 1 / 2)
    have h2 := Int.ceil_lt_add_one (x - 1 / 2)
    rw [abs_le]
    constructor <;> linarith

theorem cRound_mono : Monotone cRound := by
  intro a b hab
  unfold cRound
  split_ifs with h1 h2 h2
  · exact_mod_cast Int.floor_le_floor (by linarith)
  · exfalso
    linarith
  · have e1 : ⌈a - 1 / 2⌉ ≤ 0 := by
      rw [Int.ceil_le]
      push_cast
      linarith
    have e2 : 0 ≤ ⌊b + 1 / 2⌋ := Int.floor_nonneg.2 (by linarith)
    exact_mod_cast e1.trans e2
  · exact_mod_cast Int.ceil_le_ceil (by linarith)

namespace Wobbly

open Spec

/-- One coordinate of the running extreme. -/
theorem extreme_fold_min (x : Idx → ℝ) (l : List Idx) (e : ℝ) (he : cRound e = e) :
    l.foldl (fun acc i => setToExtreme min acc (x i)) e = cRound (l.foldl (fun acc i => min acc (x i)) e) := by
  induction l using List.reverseRecOn with
  | nil => simp [he]
  | append_singleton l a ih =>
    rw [List.foldl_append, List.foldl_append, ih]
    simp only [List.foldl_cons, List.foldl_nil, setToExtreme]
    rw [cRound_mono.map_min, cRound_idem, ← cRound_mono.map_min]

theorem extreme_fold_max (x : Idx → ℝ) (l : List Idx) (e : ℝ) (he : cRound e = e) :
    l.foldl (fun acc i => setToExtreme max acc (x i)) e = cRound (l.foldl (fun acc i => max acc (x i)) e) := by
  induction l using List.reverseRecOn with
  | nil => simp [he]
  | append_singleton l a ih =>
    rw [List.foldl_append, List.foldl_append, ih]
    simp only [List.foldl_cons, List.foldl_nil, setToExtreme]
    rw [cRound_mono.map_max, cRound_idem, ← cRound_mono.map_max]

theorem fold_min_spec (x : Idx → ℝ) (l : List Idx) (e : ℝ) :
    (∀ i ∈ l, l.foldl (fun acc i => min acc (x i)) e ≤ x i) ∧
    l.foldl (fun acc i => min acc (x i)) e ≤ e ∧
    (l.foldl (fun acc i => min acc (x i)) e = e ∨ ∃ i ∈ l, l.foldl (fun acc i => min acc (x i)) e = x i) := by
  induction l using List.reverseRecOn with
  | nil => simp
  | append_singleton l a ih =>
    obtain ⟨h1, h2, h3⟩ := ih
    rw [List.foldl_append]
    simp only [List.foldl_cons, List.foldl_nil, List.mem_append, List.mem_singleton]
    refine ⟨?_, (min_le_left _ _).trans h2, ?_⟩
    · rintro i (hi | rfl)
      · exact (min_le_left _ _).trans (h1 i hi)
      · exact min_le_right _ _
    · rcases min_choice (l.foldl (fun acc i => min acc (x i)) e) (x a) with h | h
      · rw [h]
        rcases h3 with h3 | ⟨i, hi, h3⟩
        · left; exact h3
        · right; exact ⟨i, Or.inl hi, h3⟩
      · right
        exact ⟨a, Or.inr rfl, h⟩

theorem fold_max_spec (x : Idx → ℝ) (l : List Idx) (e : ℝ) :
    (∀ i ∈ l, x i ≤ l.foldl (fun acc i => max acc (x i)) e) ∧
    e ≤ l.foldl (fun acc i => max acc (x i)) e ∧
    (l.foldl (fun acc i => max acc (x i)) e = e ∨ ∃ i ∈ l, l.foldl (fun acc i => max acc (x i)) e = x i) := by
  induction l using List.reverseRecOn with
  | nil => simp
  | append_singleton l a ih =>
    obtain ⟨h1, h2, h3⟩ := ih
    rw [List.foldl_append]
    simp only [List.foldl_cons, List.foldl_nil, List.mem_append, List.mem_singleton]
    refine ⟨?_, h2.trans (le_max_left _ _), ?_⟩
    · rintro i (hi | rfl)
      · exact (h1 i hi).trans (le_max_left _ _)
      · exact le_max_right _ _
    · rcases max_choice (l.foldl (fun acc i => max acc (x i)) e) (x a) with h | h
      · rw [h]
        rcases h3 with h3 | ⟨i, hi, h3⟩
        · left; exact h3
        · right; exact ⟨i, Or.inl hi, h3⟩
      · right
        exact ⟨a, Or.inr rfl, h⟩

theorem dblMax_eq_int : ∃ z : ℤ, dblMax = z := by
  obtain ⟨y, hy⟩ : ∃ y : ℤ, (2 : ℝ) ^ 971 = y := ⟨(2 : ℤ) ^ 971, by rw [Int.cast_pow, Int.cast_ofNat]⟩
  refine ⟨(2 ^ 53 - 1) * y, ?_⟩
  unfold dblMax
  rw [hy]
  push_cast
  norm_num

theorem dblMax_int : cRound dblMax = dblMax := by
  obtain ⟨z, hz⟩ := dblMax_eq_int
  rw [hz, cRound_int]

theorem neg_dblMax_int : cRound (-dblMax) = -dblMax := by
  obtain ⟨z, hz⟩ := dblMax_eq_int
  rw [hz, ← Int.cast_neg, cRound_int]

/-- The smallest coordinate, attained. -/
theorem min_attained (x : Idx → ℝ) (hx : ∀ i, x i ≤ dblMax) :
    ∃ i, (List.finRange 16).foldl (fun acc i => min acc (x i)) dblMax = x i ∧ ∀ j, x i ≤ x j := by
  obtain ⟨h1, h2, h3⟩ := fold_min_spec x (List.finRange 16) dblMax
  rcases h3 with h3 | ⟨i, -, h3⟩
  · refine ⟨0, ?_, ?_⟩
    · have := h1 0 (List.mem_finRange _)
      have := hx 0
      rw [h3] at *
      linarith
    · intro j
      have := h1 j (List.mem_finRange _)
      have := hx 0
      rw [h3] at *
      linarith
  · exact ⟨i, h3, fun j => h3 ▸ h1 j (List.mem_finRange _)⟩

theorem max_attained (x : Idx → ℝ) (hx : ∀ i, -dblMax ≤ x i) :
    ∃ i, (List.finRange 16).foldl (fun acc i => max acc (x i)) (-dblMax) = x i ∧ ∀ j, x j ≤ x i := by
  obtain ⟨h1, h2, h3⟩ := fold_max_spec x (List.finRange 16) (-dblMax)
  rcases h3 with h3 | ⟨i, -, h3⟩
  · refine ⟨0, ?_, ?_⟩
    · have := h1 0 (List.mem_finRange _)
      have := hx 0
      rw [h3] at *
      linarith
    · intro j
      have := h1 j (List.mem_finRange _)
      have := hx 0
      rw [h3] at *
      linarith
  · exact ⟨i, h3, fun j => h3 ▸ h1 j (List.mem_finRange _)⟩

theorem extremes_fold (m : Mesh) (l : List Idx) (a b c d : Pt) :
    l.foldl (fun e i =>
      ((⟨setToExtreme min e.1.x (m i).x, setToExtreme min e.1.y (m i).y⟩ : Pt),
       (⟨setToExtreme max e.2.1.x (m i).x, setToExtreme min e.2.1.y (m i).y⟩ : Pt),
       (⟨setToExtreme min e.2.2.1.x (m i).x, setToExtreme max e.2.2.1.y (m i).y⟩ : Pt),
       (⟨setToExtreme max e.2.2.2.x (m i).x, setToExtreme max e.2.2.2.y (m i).y⟩ : Pt))) (a, b, c, d) =
    (⟨l.foldl (fun acc i => setToExtreme min acc (m i).x) a.x, l.foldl (fun acc i => setToExtreme min acc (m i).y) a.y⟩,
     ⟨l.foldl (fun acc i => setToExtreme max acc (m i).x) b.x, l.foldl (fun acc i => setToExtreme min acc (m i).y) b.y⟩,
     ⟨l.foldl (fun acc i => setToExtreme min acc (m i).x) c.x, l.foldl (fun acc i => setToExtreme max acc (m i).y) c.y⟩,
     ⟨l.foldl (fun acc i => setToExtreme max acc (m i).x) d.x, l.foldl (fun acc i => setToExtreme max acc (m i).y) d.y⟩) := by
  induction l generalizing a b c d with
  | nil => rfl
  | cons i l ih =>
    simp only [List.foldl_cons]
    rw [ih]

/-- Bounds of the mesh. -/
noncomputable def minOf (x : Idx → ℝ) : ℝ := (List.finRange 16).foldl (fun acc i => min acc (x i)) dblMax
noncomputable def maxOf (x : Idx → ℝ) : ℝ := (List.finRange 16).foldl (fun acc i => max acc (x i)) (-dblMax)

theorem extremes_eq (m : Mesh) :
    extremes m =
      (⟨cRound (minOf fun i => (m i).x), cRound (minOf fun i => (m i).y)⟩,
       ⟨cRound (maxOf fun i => (m i).x), cRound (minOf fun i => (m i).y)⟩,
       ⟨cRound (minOf fun i => (m i).x), cRound (maxOf fun i => (m i).y)⟩,
       ⟨cRound (maxOf fun i => (m i).x), cRound (maxOf fun i => (m i).y)⟩) := by
  unfold extremes
  rw [extremes_fold]
  simp only [minOf, maxOf]
  rw [extreme_fold_min (fun i => (m i).x) _ _ dblMax_int, extreme_fold_min (fun i => (m i).y) _ _ dblMax_int,
    extreme_fold_max (fun i => (m i).x) _ _ neg_dblMax_int, extreme_fold_max (fun i => (m i).y) _ _ neg_dblMax_int]

/-! ### Bezier evaluation -/

theorem deform_fold (g : Idx → ℝ) (m : Mesh) (l : List Idx) (a : Pt) :
    l.foldl (fun (acc : Pt) i => (⟨acc.x + g i * (m i).x, acc.y + g i * (m i).y⟩ : Pt)) a =
      ⟨a.x + (l.map fun i => g i * (m i).x).sum, a.y + (l.map fun i => g i * (m i).y).sum⟩ := by
  induction l generalizing a with
  | nil => simp
  | cons i l ih =>
    simp only [List.foldl_cons, List.map_cons, List.sum_cons]
    rw [ih]
    simp [add_assoc]

/-- Weight of a mesh point. -/
noncomputable def weight (uv : Pt) (i : Idx) : ℝ := bezierCoeff uv.x (row i) * bezierCoeff uv.y (col i)

theorem deform_eq (m : Mesh) (uv : Pt) :
    deformTexcoords m uv = ⟨∑ i, weight uv i * (m i).x, ∑ i, weight uv i * (m i).y⟩ := by
  unfold deformTexcoords
  have := deform_fold (weight uv) m (List.finRange 16) ⟨0, 0⟩
  simp only [weight] at this
  rw [this]
  simp [Fin.sum_univ_def, weight]

theorem coeff_sum (t : ℝ) : bezierCoeff t 0 + bezierCoeff t 1 + bezierCoeff t 2 + bezierCoeff t 3 = 1 := by
  simp only [bezierCoeff]
  ring

theorem coeff_linear (t : ℝ) : bezierCoeff t 1 + 2 * bezierCoeff t 2 + 3 * bezierCoeff t 3 = 3 * t := by
  simp only [bezierCoeff]
  ring

theorem coeff_nonneg {t : ℝ} (h0 : 0 ≤ t) (h1 : t ≤ 1) (n : ℕ) : 0 ≤ bezierCoeff t n := by
  have : 0 ≤ 1 - t := by linarith
  unfold bezierCoeff
  split <;> positivity

/-- A sum over the mesh, row by row. -/
theorem sum_mesh (f : Idx → ℝ) :
    ∑ i, f i = (f 0 + f 1 + f 2 + f 3) + (f 4 + f 5 + f 6 + f 7) + (f 8 + f 9 + f 10 + f 11) +
      (f 12 + f 13 + f 14 + f 15) := by
  simp only [Fin.sum_univ_succ, Fin.sum_univ_zero]
  simp only [add_zero, ← add_assoc]
  rfl

theorem weight_sum_row (uv : Pt) (g : ℕ → ℝ) :
    ∑ i, weight uv i * g (row i) = bezierCoeff uv.x 0 * g 0 + bezierCoeff uv.x 1 * g 1 + bezierCoeff uv.x 2 * g 2 +
      bezierCoeff uv.x 3 * g 3 := by
  rw [sum_mesh]
  have hc := coeff_sum uv.y
  simp only [weight]
  change (bezierCoeff uv.x 0 * bezierCoeff uv.y 0 * g 0 + bezierCoeff uv.x 0 * bezierCoeff uv.y 1 * g 0 +
    bezierCoeff uv.x 0 * bezierCoeff uv.y 2 * g 0 + bezierCoeff uv.x 0 * bezierCoeff uv.y 3 * g 0) +
    (bezierCoeff uv.x 1 * bezierCoeff uv.y 0 * g 1 + bezierCoeff uv.x 1 * bezierCoeff uv.y 1 * g 1 +
    bezierCoeff uv.x 1 * bezierCoeff uv.y 2 * g 1 + bezierCoeff uv.x 1 * bezierCoeff uv.y 3 * g 1) +
    (bezierCoeff uv.x 2 * bezierCoeff uv.y 0 * g 2 + bezierCoeff uv.x 2 * bezierCoeff uv.y 1 * g 2 +
    bezierCoeff uv.x 2 * bezierCoeff uv.y 2 * g 2 + bezierCoeff uv.x 2 * bezierCoeff uv.y 3 * g 2) +
    (bezierCoeff uv.x 3 * bezierCoeff uv.y 0 * g 3 + bezierCoeff uv.x 3 * bezierCoeff uv.y 1 * g 3 +
    bezierCoeff uv.x 3 * bezierCoeff uv.y 2 * g 3 + bezierCoeff uv.x 3 * bezierCoeff uv.y 3 * g 3) = _
  linear_combination (bezierCoeff uv.x 0 * g 0 + bezierCoeff uv.x 1 * g 1 + bezierCoeff uv.x 2 * g 2 +
      bezierCoeff uv.x 3 * g 3) * hc

theorem weight_sum_col (uv : Pt) (g : ℕ → ℝ) :
    ∑ i, weight uv i * g (col i) = bezierCoeff uv.y 0 * g 0 + bezierCoeff uv.y 1 * g 1 + bezierCoeff uv.y 2 * g 2 +
      bezierCoeff uv.y 3 * g 3 := by
  rw [sum_mesh]
  have hc := coeff_sum uv.x
  simp only [weight]
  change (bezierCoeff uv.x 0 * bezierCoeff uv.y 0 * g 0 + bezierCoeff uv.x 0 * bezierCoeff uv.y 1 * g 1 +
    bezierCoeff uv.x 0 * bezierCoeff uv.y 2 * g 2 + bezierCoeff uv.x 0 * bezierCoeff uv.y 3 * g 3) +
    (bezierCoeff uv.x 1 * bezierCoeff uv.y 0 * g 0 + bezierCoeff uv.x 1 * bezierCoeff uv.y 1 * g 1 +
    bezierCoeff uv.x 1 * bezierCoeff uv.y 2 * g 2 + bezierCoeff uv.x 1 * bezierCoeff uv.y 3 * g 3) +
    (bezierCoeff uv.x 2 * bezierCoeff uv.y 0 * g 0 + bezierCoeff uv.x 2 * bezierCoeff uv.y 1 * g 1 +
    bezierCoeff uv.x 2 * bezierCoeff uv.y 2 * g 2 + bezierCoeff uv.x 2 * bezierCoeff uv.y 3 * g 3) +
    (bezierCoeff uv.x 3 * bezierCoeff uv.y 0 * g 0 + bezierCoeff uv.x 3 * bezierCoeff uv.y 1 * g 1 +
    bezierCoeff uv.x 3 * bezierCoeff uv.y 2 * g 2 + bezierCoeff uv.x 3 * bezierCoeff uv.y 3 * g 3) = _
  linear_combination (bezierCoeff uv.y 0 * g 0 + bezierCoeff uv.y 1 * g 1 + bezierCoeff uv.y 2 * g 2 +
      bezierCoeff uv.y 3 * g 3) * hc

theorem weight_sum (uv : Pt) : ∑ i, weight uv i = 1 := by
  have := weight_sum_row uv (fun _ => 1)
  simp only [mul_one] at this
  rw [this, coeff_sum]

/-- The specification's lattice and the position array agree. -/
theorem isMeshLattice_iff (m : Mesh) (p : Pt) (tx ty : ℝ) :
    IsMeshLattice m p tx ty ↔ m = positionArray p ⟨tx, ty⟩ := by
  constructor
  · intro h
    funext i
    have := h ⟨i.val / 4, by omega⟩ ⟨i.val % 4, by omega⟩
    have e : (⟨4 * (i.val / 4) + i.val % 4, by omega⟩ : Idx) = i := by
      ext
      simp only
      omega
    simp only [e] at this
    rw [this]
    rfl
  · rintro rfl r c
    have e1 : (4 * r.val + c.val) / 4 = r.val := by omega
    have e2 : (4 * r.val + c.val) % 4 = c.val := by omega
    ext <;> simp [positionArray, row, col, e1, e2]

end Wobbly

end Verif
