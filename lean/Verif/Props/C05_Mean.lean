import Verif.Lemmas.Sampler

/-!
# C05 The image is the mean of the samples

With NaN samples the code divides by the number of all passes, so the full property fails
(`C05_violated`); without NaN it holds.
-/

namespace BR

open Finset

/-- Arithmetic mean of the first `n` numbers. -/
noncomputable def mean (x : Nat → ℝ) (n : Nat) : ℝ := (∑ k ∈ range n, x k) / n

/-- Exact arithmetic, no NaN: after `n ≥ 1` passes each channel of the image is the mean of the
sampled channel values. -/
theorem C05_mean_partial (g : Nat → Color ℝ) (n : Nat) (hn : 1 ≤ n) :
    (accumulate g Cell.zero n).image =
      ⟨mean (fun k => (g k).R) n, mean (fun k => (g k).G) n, mean (fun k => (g k).B) n⟩ := by
  have hn' : (n : ℝ) ≠ 0 := by positivity
  rw [accumulate_real]
  simp only [Cell.image, Color.mul, ofInt_real, lit_real, mean]
  push_cast
  ext <;> simp only [] <;> field_simp

/-- The real value of a finite extended number. -/
def Ext.val : Ext → Option ℝ
  | .num x _ => some x
  | _ => none

/-- A finite colour, or (for `none`) a NaN colour. -/
def sampleOf : Option (Color ℝ) → Color Ext
  | some c => ⟨.num c.R false, .num c.G false, .num c.B false⟩
  | none => ⟨.nan, .nan, .nan⟩

/-- With NaN samples (`none`), the image is the sum of the other samples divided by the number of
*all* passes. -/
theorem C05_nan_partial (g : Nat → Option (Color ℝ)) (n : Nat) (hn : 1 ≤ n) :
    let s := (accumulate (fun k => sampleOf (g k)) Cell.zero n).image
    s.R.val = some ((∑ k ∈ range n, ((g k).map Color.R).getD 0) / n) ∧
    s.G.val = some ((∑ k ∈ range n, ((g k).map Color.G).getD 0) / n) ∧
    s.B.val = some ((∑ k ∈ range n, ((g k).map Color.B).getD 0) / n) := by
  have key : ∀ m, ∃ a b c, (accumulate (fun k => sampleOf (g k)) Cell.zero m).sum =
      ⟨.num (∑ k ∈ range m, ((g k).map Color.R).getD 0) a,
       .num (∑ k ∈ range m, ((g k).map Color.G).getD 0) b,
       .num (∑ k ∈ range m, ((g k).map Color.B).getD 0) c⟩ := by
    intro m
    induction m with
    | zero => exact ⟨false, false, false, by simp [accumulate, Cell.zero, Color.black]⟩
    | succ m ih =>
      obtain ⟨a, b, c, ih⟩ := ih
      have hk : (accumulate (fun k => sampleOf (g k)) Cell.zero m).n = m := by
        rw [accumulate_n]; simp [Cell.zero]
      rw [accumulate, hk]
      generalize accumulate (fun k => sampleOf (g k)) Cell.zero m = A at *
      rw [Cell.push]
      cases hg : g m with
      | none =>
        refine ⟨a, b, c, ?_⟩
        simp [sampleOf, Color.isNaN, ih, sum_range_succ, hg]
      | some col =>
        simp only [sampleOf, Color.isNaN, Ext.eq_num, decide_true, Bool.not_true, Bool.or_self,
          Bool.false_eq_true, if_false, ih, Color.add, Ext.num_add_num, sum_range_succ, hg,
          Option.map_some, Option.getD_some]
        exact ⟨_, _, _, rfl⟩
  intro s
  obtain ⟨a, b, c, hs⟩ := key n
  have hn' : (n : ℝ) ≠ 0 := by positivity
  have hk : (accumulate (fun k => sampleOf (g k)) Cell.zero n).n = n := by
    rw [accumulate_n]; simp [Cell.zero]
  simp only [s, Cell.image, Color.mul, hs, hk, Ext.lit_ext, Ext.ofInt_ext]
  push_cast
  rw [Ext.num_div_num _ _ _ _ hn']
  simp only [Ext.num_mul_num, Ext.val, Option.some.injEq]
  refine ⟨?_, ?_, ?_⟩ <;> ring

/-- The property fails in the code: one white and one NaN sample give half brightness, although the
only valid sample is white. -/
theorem C05_violated : ∃ g : Nat → Option (Color ℝ), g 0 = some ⟨1, 1, 1⟩ ∧ g 1 = none ∧
    (accumulate (fun k => sampleOf (g k)) Cell.zero 2).image.R.val = some (1 / 2) := by
  refine ⟨fun k => if k = 0 then some ⟨1, 1, 1⟩ else none, rfl, rfl, ?_⟩
  have := (C05_nan_partial (fun k => if k = 0 then some ⟨1, 1, 1⟩ else none) 2 (by norm_num)).1
  rw [this]
  simp [sum_range_succ]

/-- Before the first pass the image is not black but NaN. -/
theorem C05_empty : (accumulate (fun _ => (Color.black : Color Ext)) Cell.zero 0).image
    = ⟨.nan, .nan, .nan⟩ := by
  simp [accumulate, Cell.zero, Cell.image, Color.mul, Color.black, Ext.num_div_zero, Ext.inf_mul_num]

/-- Non-vacuity of the mean: two samples 1 and 3 have mean 2. -/
example : mean (fun k => if k = 0 then 1 else 3) 2 = 2 := by
  simp [mean, sum_range_succ]; norm_num

end BR
