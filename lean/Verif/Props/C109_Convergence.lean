import Verif.Lemmas.Golden

/-! C109: the table of errors against the number of passes. In exact arithmetic. -/

namespace BR

open Finset

/-- **The reported error** of a picture of `w` by `h` pixels is the root of the mean square of the distance of its pixels from those of the
reference (with what is brighter than white cut off), divided by the root of the number of pixels. (It should not be divided.) -/
theorem C109_value_partial {img golden : List (List (Color ℝ))} {w h : ℕ} {f g : ℕ → ℕ → Color ℝ} (hf : Rows img w h f) (hg : Rows golden w h g) :
    rmsError img golden = .ok (rootMeanSquare w h f g / Real.sqrt (w * h)) := by
  rw [rmsError_eq hf hg le_rfl le_rfl]
  congr 1
  have hn : (0 : ℝ) ≤ (w : ℝ) * h := by positivity
  unfold rootMeanSquare
  rw [Real.sqrt_div' _ hn, div_div, Real.mul_self_sqrt hn]

/-- **No error is reported if and only if the pictures are equal**, but for what is brighter than white. -/
theorem C109_zero {img golden : List (List (Color ℝ))} {w h : ℕ} {f g : ℕ → ℕ → Color ℝ} (hf : Rows img w h f) (hg : Rows golden w h g)
    (hw : 0 < w) (hh : 0 < h) : ∃ e, rmsError img golden = .ok e ∧ 0 ≤ e ∧ (e = 0 ↔ ∀ x y, x < w → y < h → cutOff (f x y) = cutOff (g x y)) := by
  have hn : (0 : ℝ) < (w : ℝ) * h := by positivity
  refine ⟨_, rmsError_eq hf hg le_rfl le_rfl, by positivity, ?_⟩
  have nn : ∀ y, 0 ≤ ∑ x ∈ range w, colorGap (cutOff (f x y)) (cutOff (g x y)) := fun y => sum_nonneg fun x _ => colorGap_nonneg _ _
  rw [div_eq_zero_iff, or_iff_left hn.ne', Real.sqrt_eq_zero (sum_nonneg fun y _ => nn y), sum_eq_zero_iff_of_nonneg fun y _ => nn y]
  constructor
  · intro h x y hx hy
    have := h y (mem_range.2 hy)
    rw [sum_eq_zero_iff_of_nonneg fun x _ => colorGap_nonneg _ _] at this
    exact (colorGap_zero _ _).1 (this x (mem_range.2 hx))
  · intro h y hy
    exact sum_eq_zero fun x hx => (colorGap_zero _ _).2 (h x y (mem_range.1 hx) (mem_range.1 hy))

/-- A picture of one colour, as rows. -/
def plainRows (w h : ℕ) (c : Color ℝ) : List (List (Color ℝ)) := List.replicate h (List.replicate w c)

theorem plainRows_rows (w h : ℕ) (c : Color ℝ) : Rows (plainRows w h c) w h fun _ _ => c := by
  refine ⟨by simp [plainRows], fun y r hr => ?_⟩
  obtain ⟨-, rfl⟩ : y < h ∧ List.replicate w c = r := by simpa [plainRows, List.getElem?_replicate] using hr
  refine ⟨by simp, fun x d hd => ?_⟩
  obtain ⟨-, rfl⟩ : x < w ∧ c = d := by simpa [List.getElem?_replicate] using hd
  rfl

/-- **The error is not the root mean square** (a violation): a picture whose pixels are all off by one (red instead of black) has a root mean
square of one at every size, but the reported error is one over the root of the number of pixels. At 300 by 300 pixels it is 1/300. -/
theorem C109_violated (w h : ℕ) (hw : 0 < w) (hh : 0 < h) :
    rootMeanSquare w h (fun _ _ => ⟨1, 0, 0⟩) (fun _ _ => ⟨0, 0, 0⟩) = 1 ∧
    rmsError (plainRows w h ⟨1, 0, 0⟩) (plainRows w h ⟨0, 0, 0⟩) = .ok (1 / Real.sqrt (w * h)) ∧
    rmsError (plainRows 300 300 ⟨1, 0, 0⟩) (plainRows 300 300 ⟨0, 0, 0⟩) = .ok (1 / 300) := by
  have one : ∀ w h : ℕ, 0 < w → 0 < h → rootMeanSquare w h (fun _ _ => ⟨1, 0, 0⟩) (fun _ _ => ⟨0, 0, 0⟩) = 1 := by
    intro w h hw hh
    have hn : (0 : ℝ) < (w : ℝ) * h := by positivity
    have : ∑ y ∈ range h, ∑ x ∈ range w, colorGap (cutOff ⟨1, 0, 0⟩) (cutOff ⟨0, 0, 0⟩) = (w : ℝ) * h := by
      simp [colorGap, cutOff, mul_comm]
    unfold rootMeanSquare
    rw [this, div_self hn.ne', Real.sqrt_one]
  refine ⟨one w h hw hh, ?_, ?_⟩
  · rw [C109_value_partial (plainRows_rows _ _ _) (plainRows_rows _ _ _), one w h hw hh]
  · rw [C109_value_partial (plainRows_rows _ _ _) (plainRows_rows _ _ _), one _ _ (by norm_num) (by norm_num)]
    congr 2
    rw [show (((300 : ℕ) : ℝ) * ((300 : ℕ) : ℝ)) = 300 * 300 by norm_num, Real.sqrt_mul_self (by norm_num)]

/-- A loop with a step that always fails does not succeed. -/
theorem foldlM_fails {α : Type} (k : α → ℕ → GoM α) {n i : ℕ} (hi : i < n) (h : ∀ s, ∃ e, k s i = .error e) (a : α) :
    ∃ e, (List.range n).foldlM k a = .error e := by
  induction n with
  | zero => omega
  | succ n ih =>
    rw [List.range_succ, List.foldlM_append]
    rcases Nat.lt_succ_iff_lt_or_eq.1 hi with hlt | rfl
    · obtain ⟨e, he⟩ := ih hlt
      exact ⟨e, by rw [he, error_bind]⟩
    · cases hp : (List.range i).foldlM k a with
      | error e => exact ⟨e, rfl⟩
      | ok s =>
        obtain ⟨e, he⟩ := h s
        refine ⟨e, ?_⟩
        simp only [ok_bind, List.foldlM_cons, List.foldlM_nil, he, error_bind]

/-- **A reference that is too small is noticed**: the comparison crashes, and reports nothing. In any arithmetic. -/
theorem C109_small {F : Type} [Add F] [Sub F] [Mul F] [Div F] [Neg F] [GoFloat F] {img golden : List (List (Color F))} {w h w' h' : ℕ}
    {f g : ℕ → ℕ → Color F} (hf : Rows img w h f) (hg : Rows golden w' h' g) (hw : 0 < w) (hh : 0 < h) (hs : w' < w ∨ h' < h) :
    ∃ e, rmsError img golden = .error e := by
  obtain ⟨x, y, hx, hy, hbad⟩ : ∃ x y, x < w ∧ y < h ∧ ∃ e, rowsGet golden x y = .error e := by
    rcases hs with hs | hs
    · refine ⟨w', 0, hs, hh, .indexOutOfRange, ?_⟩
      cases hg0 : golden[0]? with
      | none => simp only [rowsGet, hg0]
      | some r =>
        have : r[w']? = none := by rw [List.getElem?_eq_none_iff, (hg.2 0 r hg0).1]
        simp only [rowsGet, hg0, this]
    · refine ⟨0, h', hw, hs, .indexOutOfRange, ?_⟩
      have : golden[h']? = none := by rw [List.getElem?_eq_none_iff, hg.1]
      simp only [rowsGet, this]
  obtain ⟨e, he⟩ := hbad
  have er := List.getElem?_eq_getElem (l := img) (i := y) (by have := hf.1; omega)
  have hrl : (img[y]?.getD []).length = w := by rw [er]; exact (hf.2 y _ er).1
  have inner : ∀ s : F, ∃ e, (do
      let a ← rowsGet img x y
      let b ← rowsGet golden x y
      return s + (Vec.sub ⟨(clampOne a).R, (clampOne a).G, (clampOne a).B⟩ ⟨(clampOne b).R, (clampOne b).G, (clampOne b).B⟩).len2 : GoM F) = .error e := by
    intro s
    cases rowsGet img x y with
    | error e => exact ⟨e, rfl⟩
    | ok a => exact ⟨e, by rw [ok_bind, he, error_bind]⟩
  unfold rmsError
  obtain ⟨e2, h2⟩ := foldlM_fails (fun (errSq : F) iy => do
    let errSqx ← (List.range (img[iy]?.getD []).length).foldlM (fun (errSqx : F) ix => do
      let a := clampOne (← rowsGet img ix iy)
      let b := clampOne (← rowsGet golden ix iy)
      return errSqx + (Vec.sub ⟨a.R, a.G, a.B⟩ ⟨b.R, b.G, b.B⟩).len2) (lit 0)
    return errSq + errSqx) (i := y) (n := img.length) (by have := hf.1; omega) (by
      intro s
      obtain ⟨e3, h3⟩ := foldlM_fails (fun (errSqx : F) ix => do
        let a := clampOne (← rowsGet img ix y)
        let b := clampOne (← rowsGet golden ix y)
        return errSqx + (Vec.sub ⟨a.R, a.G, a.B⟩ ⟨b.R, b.G, b.B⟩).len2) hx inner (lit 0)
      refine ⟨e3, ?_⟩
      dsimp only
      rw [hrl, h3, error_bind]) (lit 0)
  exact ⟨e2, by rw [h2, error_bind]⟩

/-- **The table**: after any history of sampling, there is one row for each call, in order, with the number of passes up to then and the
error of the picture at that point. In any arithmetic. -/
theorem C109_table {F : Type} [Add F] [Sub F] [Mul F] [Div F] [Neg F] [GoFloat F] (golden : List (List (Color F)))
    (calls : List (Int × List (List (Color F)))) (c : Convergence F)
    (h : calls.foldlM (fun c s => Convergence.sample golden c s.1 s.2) ⟨0, []⟩ = .ok c) :
    c.totalPass = (calls.map Prod.fst).sum ∧ c.output.length = calls.length ∧
    ∀ i n img, calls[i]? = some (n, img) → ∃ e, rmsError img golden = .ok e ∧ c.output[i]? = some (((calls.take (i + 1)).map Prod.fst).sum, e) := by
  induction calls using List.reverseRecOn generalizing c with
  | nil =>
    simp only [List.foldlM_nil, pure_ok, Except.ok.injEq] at h
    subst h
    simp
  | append_singleton calls s ih =>
    rw [List.foldlM_append] at h
    obtain ⟨c1, h1, h2⟩ := bind_eq_ok.1 h
    simp only [List.foldlM_cons, List.foldlM_nil] at h2
    obtain ⟨c2, h2, h3⟩ := bind_eq_ok.1 h2
    have e3 : c2 = c := by simpa [pure, Except.pure] using h3
    rw [← e3]
    obtain ⟨t1, l1, r1⟩ := ih c1 h1
    unfold Convergence.sample at h2
    obtain ⟨e, he, h4⟩ := bind_eq_ok.1 h2
    have e4 : (⟨c1.totalPass + s.1, c1.output ++ [(c1.totalPass + s.1, e)]⟩ : Convergence F) = c2 := by simpa [pure, Except.pure] using h4
    rw [← e4]
    refine ⟨by simp [t1], by simp [l1], ?_⟩
    intro i n img hi
    by_cases hlt : i < calls.length
    · rw [List.getElem?_append_left hlt] at hi
      obtain ⟨e', he', ho⟩ := r1 i n img hi
      refine ⟨e', he', ?_⟩
      rw [List.getElem?_append_left (by omega), ho, List.take_append_of_le_length (by omega)]
    · have hi' : i = calls.length := by
        have := (List.getElem?_eq_some_iff.1 hi).1
        simp at this
        omega
      subst hi'
      have hs : s = (n, img) := by simpa using hi
      subst hs
      refine ⟨e, he, ?_⟩
      rw [← l1, List.getElem?_append_right le_rfl]
      simp [l1, t1]

/-- A reference of one pixel for a picture of four. -/
example : ∃ e, rmsError (plainRows 2 2 ⟨1, 0, 0⟩) (plainRows 1 1 ⟨0, 0, 0⟩) = .error e :=
  C109_small (plainRows_rows _ _ _) (plainRows_rows _ _ _) (by norm_num) (by norm_num) (.inl (by norm_num))

/-- Two calls, of 3 and 4 passes, with a red picture that turns black like the reference. -/
example : ∃ c, [((3 : Int), plainRows 2 2 ⟨1, 0, 0⟩), (4, plainRows 2 2 ⟨0, 0, 0⟩)].foldlM
      (fun c s => Convergence.sample (plainRows 2 2 ⟨0, 0, 0⟩) c s.1 s.2) ⟨0, []⟩ = Except.ok (ε := Panic) c ∧
    c.totalPass = 7 ∧ c.output[0]? = some (3, 1 / 2) ∧ ∃ e, c.output[1]? = some (7, e) ∧ e = 0 := by
  have e1 := (C109_violated 2 2 (by norm_num) (by norm_num)).2.1
  rw [show (((2 : ℕ) : ℝ) * ((2 : ℕ) : ℝ)) = 2 * 2 by norm_num, Real.sqrt_mul_self (by norm_num)] at e1
  obtain ⟨e, e2, -, hz⟩ := C109_zero (plainRows_rows 2 2 ⟨0, 0, 0⟩) (plainRows_rows 2 2 ⟨0, 0, 0⟩) (by norm_num) (by norm_num)
  refine ⟨⟨7, [(3, 1 / 2), (7, e)]⟩, ?_, rfl, rfl, e, rfl, hz.2 fun _ _ _ _ => rfl⟩
  simp [Convergence.sample, e1, e2, pure, Except.pure, bind, Except.bind]

end BR
