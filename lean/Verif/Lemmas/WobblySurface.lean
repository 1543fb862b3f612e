import Verif.Lemmas.WobblyMesh
import Verif.Spec.Surface

/-! # Differences on a Bézier surface -/

namespace Verif.Wobbly

open Spec

noncomputable section

/-- How much of the differences between control points a cubic curve collects between two parameters, per
unit of parameter. -/
def share (s t : ℝ) (n : ℕ) : ℝ :=
  match n with
  | 0 => (1 - s) ^ 2 + (1 - s) * (1 - t) + (1 - t) ^ 2
  | 1 => 3 * (s + t) - 2 * (s ^ 2 + s * t + t ^ 2)
  | _ => s ^ 2 + s * t + t ^ 2

theorem share_nonneg {s t : ℝ} (hs : 0 ≤ s ∧ s ≤ 1) (ht : 0 ≤ t ∧ t ≤ 1) (n : ℕ) : 0 ≤ share s t n := by
  have h1 : 0 ≤ 1 - s := by linarith
  have h2 : 0 ≤ 1 - t := by linarith
  obtain ⟨s0, -⟩ := hs
  obtain ⟨t0, -⟩ := ht
  unfold share
  split
  · positivity
  · nlinarith [mul_nonneg s0 h1, mul_nonneg t0 h2, mul_nonneg s0 h2, mul_nonneg t0 h1]
  · positivity

theorem share_sum (s t : ℝ) : share s t 0 + share s t 1 + share s t 2 = 3 := by
  simp only [share]
  ring

theorem curve_diff (s t a b c d : ℝ) :
    (bezierCoeff t 0 * a + bezierCoeff t 1 * b + bezierCoeff t 2 * c + bezierCoeff t 3 * d) -
      (bezierCoeff s 0 * a + bezierCoeff s 1 * b + bezierCoeff s 2 * c + bezierCoeff s 3 * d) =
    (t - s) * (share s t 0 * (b - a) + share s t 1 * (c - b) + share s t 2 * (d - c)) := by
  simp only [bezierCoeff, share]
  ring

/-- The left end of edge number `k` along the rows. -/
def leftOf (k : Fin 12) : Idx := ⟨4 * (k.val / 3) + k.val % 3, by omega⟩

/-- The right end of edge number `k` along the rows. -/
def rightOf (k : Fin 12) : Idx := ⟨4 * (k.val / 3) + k.val % 3 + 1, by omega⟩

/-- The upper end of edge number `k` along the columns. -/
def upperOf (k : Fin 12) : Idx := ⟨4 * (k.val % 3) + k.val / 3, by omega⟩

/-- The lower end of edge number `k` along the columns. -/
def lowerOf (k : Fin 12) : Idx := ⟨4 * (k.val % 3) + k.val / 3 + 4, by omega⟩

theorem next_row (k : Fin 12) : NextInRow (leftOf k) (rightOf k) := by
  unfold NextInRow leftOf rightOf
  dsimp only
  omega

theorem next_column (k : Fin 12) : NextInColumn (upperOf k) (lowerOf k) := rfl

/-- The share of edge `k`: by its place across, and by how much of it lies between the parameters. -/
def portion (q s t : ℝ) (k : Fin 12) : ℝ := bezierCoeff q (k.val / 3) * share s t (k.val % 3)

theorem portion_nonneg {q s t : ℝ} (hq : 0 ≤ q ∧ q ≤ 1) (hs : 0 ≤ s ∧ s ≤ 1) (ht : 0 ≤ t ∧ t ≤ 1) (k : Fin 12) :
    0 ≤ portion q s t k := mul_nonneg (coeff_nonneg hq.1 hq.2 _) (share_nonneg hs ht _)

theorem sum_twelve (f : Fin 12 → ℝ) :
    ∑ i, f i = (f 0 + f 1 + f 2) + (f 3 + f 4 + f 5) + (f 6 + f 7 + f 8) + (f 9 + f 10 + f 11) := by
  simp only [Fin.sum_univ_succ, Fin.sum_univ_zero]
  simp only [add_zero, ← add_assoc]
  rfl

theorem portion_sum (q s t : ℝ) : ∑ k, portion q s t k = 3 := by
  rw [sum_twelve]
  have h1 := coeff_sum q
  have h2 := share_sum s t
  change (bezierCoeff q 0 * share s t 0 + bezierCoeff q 0 * share s t 1 + bezierCoeff q 0 * share s t 2) +
    (bezierCoeff q 1 * share s t 0 + bezierCoeff q 1 * share s t 1 + bezierCoeff q 1 * share s t 2) +
    (bezierCoeff q 2 * share s t 0 + bezierCoeff q 2 * share s t 1 + bezierCoeff q 2 * share s t 2) +
    (bezierCoeff q 3 * share s t 0 + bezierCoeff q 3 * share s t 1 + bezierCoeff q 3 * share s t 2) = 3
  linear_combination (share s t 0 + share s t 1 + share s t 2) * h1 + h2

theorem weights_mesh (c : Idx → ℝ) (u v : ℝ) : ∑ i, weight ⟨u, v⟩ i * c i =
    (bezierCoeff u 0 * bezierCoeff v 0 * c 0 + bezierCoeff u 0 * bezierCoeff v 1 * c 1 +
      bezierCoeff u 0 * bezierCoeff v 2 * c 2 + bezierCoeff u 0 * bezierCoeff v 3 * c 3) +
    (bezierCoeff u 1 * bezierCoeff v 0 * c 4 + bezierCoeff u 1 * bezierCoeff v 1 * c 5 +
      bezierCoeff u 1 * bezierCoeff v 2 * c 6 + bezierCoeff u 1 * bezierCoeff v 3 * c 7) +
    (bezierCoeff u 2 * bezierCoeff v 0 * c 8 + bezierCoeff u 2 * bezierCoeff v 1 * c 9 +
      bezierCoeff u 2 * bezierCoeff v 2 * c 10 + bezierCoeff u 2 * bezierCoeff v 3 * c 11) +
    (bezierCoeff u 3 * bezierCoeff v 0 * c 12 + bezierCoeff u 3 * bezierCoeff v 1 * c 13 +
      bezierCoeff u 3 * bezierCoeff v 2 * c 14 + bezierCoeff u 3 * bezierCoeff v 3 * c 15) := by
  rw [sum_mesh]
  rfl

theorem along_rows (c : Idx → ℝ) (u s t : ℝ) :
    ∑ i, weight ⟨u, t⟩ i * c i - ∑ i, weight ⟨u, s⟩ i * c i =
      (t - s) * ∑ k, portion u s t k * (c (rightOf k) - c (leftOf k)) := by
  rw [weights_mesh, weights_mesh, sum_twelve]
  change _ = (t - s) *
    ((bezierCoeff u 0 * share s t 0 * (c 1 - c 0) + bezierCoeff u 0 * share s t 1 * (c 2 - c 1) +
      bezierCoeff u 0 * share s t 2 * (c 3 - c 2)) +
    (bezierCoeff u 1 * share s t 0 * (c 5 - c 4) + bezierCoeff u 1 * share s t 1 * (c 6 - c 5) +
      bezierCoeff u 1 * share s t 2 * (c 7 - c 6)) +
    (bezierCoeff u 2 * share s t 0 * (c 9 - c 8) + bezierCoeff u 2 * share s t 1 * (c 10 - c 9) +
      bezierCoeff u 2 * share s t 2 * (c 11 - c 10)) +
    (bezierCoeff u 3 * share s t 0 * (c 13 - c 12) + bezierCoeff u 3 * share s t 1 * (c 14 - c 13) +
      bezierCoeff u 3 * share s t 2 * (c 15 - c 14)))
  linear_combination bezierCoeff u 0 * curve_diff s t (c 0) (c 1) (c 2) (c 3) +
    bezierCoeff u 1 * curve_diff s t (c 4) (c 5) (c 6) (c 7) +
    bezierCoeff u 2 * curve_diff s t (c 8) (c 9) (c 10) (c 11) +
    bezierCoeff u 3 * curve_diff s t (c 12) (c 13) (c 14) (c 15)

theorem along_columns (c : Idx → ℝ) (v s t : ℝ) :
    ∑ i, weight ⟨t, v⟩ i * c i - ∑ i, weight ⟨s, v⟩ i * c i =
      (t - s) * ∑ k, portion v s t k * (c (lowerOf k) - c (upperOf k)) := by
  rw [weights_mesh, weights_mesh, sum_twelve]
  change _ = (t - s) *
    ((bezierCoeff v 0 * share s t 0 * (c 4 - c 0) + bezierCoeff v 0 * share s t 1 * (c 8 - c 4) +
      bezierCoeff v 0 * share s t 2 * (c 12 - c 8)) +
    (bezierCoeff v 1 * share s t 0 * (c 5 - c 1) + bezierCoeff v 1 * share s t 1 * (c 9 - c 5) +
      bezierCoeff v 1 * share s t 2 * (c 13 - c 9)) +
    (bezierCoeff v 2 * share s t 0 * (c 6 - c 2) + bezierCoeff v 2 * share s t 1 * (c 10 - c 6) +
      bezierCoeff v 2 * share s t 2 * (c 14 - c 10)) +
    (bezierCoeff v 3 * share s t 0 * (c 7 - c 3) + bezierCoeff v 3 * share s t 1 * (c 11 - c 7) +
      bezierCoeff v 3 * share s t 2 * (c 15 - c 11)))
  linear_combination bezierCoeff v 0 * curve_diff s t (c 0) (c 4) (c 8) (c 12) +
    bezierCoeff v 1 * curve_diff s t (c 1) (c 5) (c 9) (c 13) +
    bezierCoeff v 2 * curve_diff s t (c 2) (c 6) (c 10) (c 14) +
    bezierCoeff v 3 * curve_diff s t (c 3) (c 7) (c 11) (c 15)

/-- A weighted sum of vectors is at most the sum of the weights times the length of the longest. -/
theorem combine_le {ι : Type} [Fintype ι] {w x y : ι → ℝ} {D : ℝ} (hw : ∀ i, 0 ≤ w i)
    (h : ∀ i, x i ^ 2 + y i ^ 2 ≤ D ^ 2) :
    (∑ i, w i * x i) ^ 2 + (∑ i, w i * y i) ^ 2 ≤ ((∑ i, w i) * D) ^ 2 := by
  have cs : ∀ z : ι → ℝ, (∑ i, w i * z i) ^ 2 ≤ (∑ i, w i) * ∑ i, w i * z i ^ 2 := fun z =>
    Finset.sum_sq_le_sum_mul_sum_of_sq_le_mul _ (fun i _ => hw i) (fun i _ => mul_nonneg (hw i) (sq_nonneg _))
      (fun i _ => le_of_eq (by ring))
  have hs : 0 ≤ ∑ i, w i := Finset.sum_nonneg fun i _ => hw i
  calc (∑ i, w i * x i) ^ 2 + (∑ i, w i * y i) ^ 2
      ≤ (∑ i, w i) * ∑ i, w i * x i ^ 2 + (∑ i, w i) * ∑ i, w i * y i ^ 2 := add_le_add (cs x) (cs y)
    _ = (∑ i, w i) * ∑ i, w i * (x i ^ 2 + y i ^ 2) := by
        rw [← mul_add, ← Finset.sum_add_distrib]
        simp only [mul_add]
    _ ≤ (∑ i, w i) * ∑ i, w i * D ^ 2 :=
        mul_le_mul_of_nonneg_left (Finset.sum_le_sum fun i _ => mul_le_mul_of_nonneg_left (h i) (hw i)) hs
    _ = ((∑ i, w i) * D) ^ 2 := by
        rw [← Finset.sum_mul]
        ring

/-- Some weight is positive, so a sum of positive numbers with these weights is. -/
theorem combine_pos {ι : Type} [Fintype ι] {w x : ι → ℝ} (hw : ∀ i, 0 ≤ w i) (hs : 0 < ∑ i, w i)
    (h : ∀ i, 0 < x i) : 0 < ∑ i, w i * x i := by
  obtain ⟨i, -, hi⟩ := Finset.exists_lt_of_sum_lt (s := Finset.univ) (f := fun _ : ι => (0 : ℝ)) (g := w)
    (by simpa using hs)
  exact Finset.sum_pos' (fun j _ => mul_nonneg (hw j) (h j).le) ⟨i, Finset.mem_univ _, mul_pos hi (h i)⟩

end

end Verif.Wobbly
