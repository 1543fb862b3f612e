import Verif.Lemmas.WobblyPhysics

/-! Auxiliary facts about `FindSpringToSplit`, the range constraint and friction. -/

namespace Verif.Wobbly

open Spec

theorem split_fold (at_ : Node → Pt) (p : Pt) (l : List Spring) (hne : l ≠ [])
    (h1 : ∀ s ∈ l, Pt.distance (at_ s.a) p < dblMax) (h2 : ∀ s ∈ l, Pt.distance (at_ s.b) p < dblMax) :
    ∃ f ∈ l, l.foldl (splitStep at_ p) ⟨none, dblMax, dblMax⟩ =
        ⟨some f, Pt.distance (at_ f.a) p, Pt.distance (at_ f.b) p⟩ ∧
      (∀ s ∈ l, Pt.distance (at_ f.a) p ≤ Pt.distance (at_ s.a) p) ∧
      ∀ s ∈ l, Pt.distance (at_ s.a) p = Pt.distance (at_ f.a) p →
        Pt.distance (at_ f.b) p ≤ Pt.distance (at_ s.b) p := by
  induction l using List.reverseRecOn with
  | nil => exact absurd rfl hne
  | append_singleton l a ih =>
    rw [List.foldl_append]
    have ha1 := h1 a (by simp)
    have ha2 := h2 a (by simp)
    by_cases hl : l = []
    · subst hl
      refine ⟨a, by simp, ?_, ?_, ?_⟩
      · simp [splitStep, ha1, ha2]
      · simp
      · simp
    · obtain ⟨f, hf, e, m1, m2⟩ := ih hl (fun s hs => h1 s (by simp [hs])) (fun s hs => h2 s (by simp [hs]))
      rw [e]
      simp only [List.foldl_cons, List.foldl_nil]
      rcases lt_trichotomy (Pt.distance (at_ a.a) p) (Pt.distance (at_ f.a) p) with hlt | heq | hgt
      · refine ⟨a, by simp, ?_, ?_, ?_⟩
        · simp [splitStep, hlt, ha2]
        · intro s hs
          rcases List.mem_append.1 hs with hs | hs
          · exact hlt.le.trans (m1 s hs)
          · rw [List.mem_singleton.1 hs]
        · intro s hs hsa
          rcases List.mem_append.1 hs with hs | hs
          · have := m1 s hs
            linarith
          · rw [List.mem_singleton.1 hs]
      · by_cases hb : Pt.distance (at_ a.b) p < Pt.distance (at_ f.b) p
        · refine ⟨a, by simp, ?_, ?_, ?_⟩
          · simp [splitStep, heq, hb]
          · intro s hs
            rcases List.mem_append.1 hs with hs | hs
            · exact heq.le.trans (m1 s hs)
            · rw [List.mem_singleton.1 hs]
          · intro s hs hsa
            rcases List.mem_append.1 hs with hs | hs
            · exact hb.le.trans (m2 s hs (hsa.trans heq))
            · rw [List.mem_singleton.1 hs]
        · refine ⟨f, by simp [hf], ?_, ?_, ?_⟩
          · simp [splitStep, heq, hb]
          · intro s hs
            rcases List.mem_append.1 hs with hs | hs
            · exact m1 s hs
            · rw [List.mem_singleton.1 hs, heq]
          · intro s hs hsa
            rcases List.mem_append.1 hs with hs | hs
            · exact m2 s hs hsa
            · rw [List.mem_singleton.1 hs]
              exact not_lt.1 hb
      · refine ⟨f, by simp [hf], ?_, ?_, ?_⟩
        · simp [splitStep, not_lt.2 hgt.le, hgt.ne']
        · intro s hs
          rcases List.mem_append.1 hs with hs | hs
          · exact m1 s hs
          · rw [List.mem_singleton.1 hs]
            exact hgt.le
        · intro s hs hsa
          rcases List.mem_append.1 hs with hs | hs
          · exact m2 s hs hsa
          · rw [List.mem_singleton.1 hs] at hsa ⊢
            exact absurd hsa hgt.ne'

theorem splitStep_mem (at_ : Node → Pt) (p : Pt) (l : List Spring) (f : Spring)
    (h : findSpringToSplit at_ p l = some f) : f ∈ l := by
  unfold findSpringToSplit at h
  induction l using List.reverseRecOn generalizing f with
  | nil => simp at h
  | append_singleton l a ih =>
    rw [List.foldl_append] at h
    simp only [List.foldl_cons, List.foldl_nil, splitStep] at h
    split_ifs at h
    all_goals first
      | (simp only [Option.some.injEq] at h; subst h; simp)
      | exact List.mem_append_left _ (ih f h)

/-! ### Range constraint -/

theorem constrainPoint_eq (max : ℝ) (t p : Pt) (h : Pt.distance t p ≠ 0) (hmax : max ≤ Pt.distance t p) :
    constrainPoint max t p =
      ⟨t.x + max / Pt.distance t p * (p.x - t.x), t.y + max / Pt.distance t p * (p.y - t.y)⟩ := by
  unfold constrainPoint
  simp only [min_eq_left hmax]
  ext
  · simp only [Pt.sub_x]
    field_simp
    ring
  · simp only [Pt.sub_y]
    field_simp
    ring

theorem constrainPoint_dist (max : ℝ) (t p : Pt) (h : Pt.distance t p ≠ 0) (h0 : 0 ≤ max)
    (hmax : max ≤ Pt.distance t p) : Pt.distance t (constrainPoint max t p) = max := by
  rw [constrainPoint_eq max t p h hmax]
  have hd := Pt.distance_sq t p
  have hpos : 0 < Pt.distance t p := lt_of_le_of_ne (Pt.distance_nonneg _ _) (Ne.symm h)
  rw [← pow_left_inj₀ (Pt.distance_nonneg _ _) h0 two_ne_zero, Pt.distance_sq]
  simp only
  generalize Pt.distance t p = d at *
  have : (t.x - (t.x + max / d * (p.x - t.x))) ^ 2 + (t.y - (t.y + max / d * (p.y - t.y))) ^ 2 =
      (max / d) ^ 2 * ((t.x - p.x) ^ 2 + (t.y - p.y) ^ 2) := by ring
  rw [this, ← hd]
  field_simp

/-! ### Friction -/

theorem eulerVelocity_free (f v : ℝ) : eulerVelocity 1 f mass v 0 = clip (1 / 10) ((1 - f / 15) * v) := by
  unfold eulerVelocity mass
  congr 1
  ring

theorem clip_abs_le (t c : ℝ) : |clip t c| ≤ |c| := by
  unfold clip
  split_ifs
  · simp
  · exact le_refl _

theorem free_abs_le (f v : ℝ) :
    |eulerVelocity 1 f mass v 0| ≤ |1 - f / 15| * |v| := by
  rw [eulerVelocity_free]
  exact (clip_abs_le _ _).trans (abs_mul _ _).le

theorem free_stops (f v : ℝ) (h0 : 0 < f) (h1 : f < 30) :
    ∃ n, (fun v => eulerVelocity 1 f mass v 0)^[n] v = 0 := by
  have hr : |1 - f / 15| < 1 := by
    rw [abs_lt]
    constructor <;> linarith
  have key : ∀ n, |(fun v => eulerVelocity 1 f mass v 0)^[n] v| ≤ |1 - f / 15| ^ n * |v| := by
    intro n
    induction n with
    | zero => simp
    | succ n ih =>
      rw [Function.iterate_succ_apply']
      refine (free_abs_le f _).trans ?_
      rw [pow_succ]
      calc |1 - f / 15| * |(fun v => eulerVelocity 1 f mass v 0)^[n] v|
          ≤ |1 - f / 15| * (|1 - f / 15| ^ n * |v|) := mul_le_mul_of_nonneg_left ih (abs_nonneg _)
        _ = _ := by ring
  have hlim : Filter.Tendsto (fun n => |1 - f / 15| ^ n * |v|) Filter.atTop (nhds 0) := by
    have := (tendsto_pow_atTop_nhds_zero_of_lt_one (abs_nonneg _) hr).mul_const |v|
    simpa using this
  obtain ⟨n, hn⟩ := (hlim.eventually (gt_mem_nhds (by norm_num : (0 : ℝ) < 1 / 10))).exists
  refine ⟨n + 1, ?_⟩
  have h2 := (key n).trans_lt hn
  rw [Function.iterate_succ_apply', eulerVelocity_free, clip_eq_zero]
  left
  rw [abs_mul]
  nlinarith [abs_nonneg ((fun v => eulerVelocity 1 f mass v 0)^[n] v), abs_nonneg (1 - f / 15)]

end Verif.Wobbly
