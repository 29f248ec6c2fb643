import Verif.Spec.Triangle
import Verif.Lemmas.ExtBox
import Verif.Lemmas.ExtIs
import Verif.Lemmas.GoM
import Mathlib.Tactic.Linarith

/-! The bounding box of finite points, in extended numbers, is the smallest real box that holds them. -/

namespace BR

theorem BBox.Spans.congr {B : BBox ℝ} {l l' : List (Vec ℝ)} (h : B.Spans l) (e : ∀ p, p ∈ l ↔ p ∈ l') :
    B.Spans l' := by
  unfold BBox.Spans at *
  simpa only [e] using h

theorem BBox.Spans.proper {B : BBox ℝ} {l : List (Vec ℝ)} (h : B.Spans l) : B.Proper := by
  obtain ⟨h, ⟨p, hp, -⟩, -⟩ := h
  obtain ⟨a, b, c, d, e, f⟩ := h p hp
  exact ⟨a.trans b, c.trans d, e.trans f⟩

theorem BBox.Spans.face {B : BBox ℝ} {l : List (Vec ℝ)} (h : B.Spans l) {p : Vec ℝ} (hp : B.OnFacePlane p) :
    SharesCoordinate l p := by
  obtain ⟨-, ⟨a, ha, ea⟩, ⟨b, hb, eb⟩, ⟨c, hc, ec⟩, ⟨d, hd, ed⟩, ⟨e, he, ee⟩, ⟨f, hf, ef⟩⟩ := h
  rcases hp with h | h | h | h | h | h
  · exact ⟨a, ha, .inl (h.trans ea)⟩
  · exact ⟨b, hb, .inl (h.trans eb)⟩
  · exact ⟨c, hc, .inr (.inl (h.trans ec))⟩
  · exact ⟨d, hd, .inr (.inl (h.trans ed))⟩
  · exact ⟨e, he, .inr (.inr (h.trans ee))⟩
  · exact ⟨f, hf, .inr (.inr (h.trans ef))⟩

/-- What holds of lists of points holds of parts of them. -/
theorem SharesCoordinate.mono {l l' : List (Vec ℝ)} (h : ∀ q ∈ l, q ∈ l') {p : Vec ℝ} (hp : SharesCoordinate l p) :
    SharesCoordinate l' p := by
  obtain ⟨q, hq, hp⟩ := hp
  exact ⟨q, h q hq, hp⟩

theorem StartsClear.mono {l l' : List (Vec ℝ)} (h : ∀ q ∈ l, q ∈ l') {R : Ray ℝ} (hc : StartsClear l' R) :
    StartsClear l R := by
  rcases hc with hc | ⟨hb, hc⟩
  · exact .inl fun hs => hc (hs.mono h)
  · refine .inr ⟨?_, fun q hq => hc q (h q hq)⟩
    rcases hb with hb | hb | hb | hb | hb | hb
    · exact .inl fun q hq => hb q (h q hq)
    · exact .inr (.inl fun q hq => hb q (h q hq))
    · exact .inr (.inr (.inl fun q hq => hb q (h q hq)))
    · exact .inr (.inr (.inr (.inl fun q hq => hb q (h q hq))))
    · exact .inr (.inr (.inr (.inr (.inl fun q hq => hb q (h q hq)))))
    · exact .inr (.inr (.inr (.inr (.inr fun q hq => hb q (h q hq)))))

private theorem between {l : ℝ} {x y z a b c m M : ℝ} (ha : 0 ≤ a) (hb : 0 ≤ b) (hc : 0 ≤ c) (hs : a + b + c = 1)
    (hx : m ≤ x ∧ x ≤ M) (hy : m ≤ y ∧ y ≤ M) (hz : m ≤ z ∧ z ≤ M) (hl : l = a * x + b * y + c * z) :
    m ≤ l ∧ l ≤ M := by
  have e0 : a = 1 - b - c := by linarith
  have h1 := mul_le_mul_of_nonneg_left hx.1 ha
  have h2 := mul_le_mul_of_nonneg_left hy.1 hb
  have h3 := mul_le_mul_of_nonneg_left hz.1 hc
  have k1 := mul_le_mul_of_nonneg_left hx.2 ha
  have k2 := mul_le_mul_of_nonneg_left hy.2 hb
  have k3 := mul_le_mul_of_nonneg_left hz.2 hc
  have em : a * m + b * m + c * m = m := by rw [e0]; ring
  have eM : a * M + b * M + c * M = M := by rw [e0]; ring
  constructor <;> linarith

/-- A box that holds the corners of a triangle holds the triangle. -/
theorem BBox.mem_triangle {B : BBox ℝ} {a b c p : Vec ℝ} (ha : B.Mem a) (hb : B.Mem b) (hc : B.Mem c)
    (hp : InTriangle a b c p) : B.Mem p := by
  obtain ⟨l0, l1, l2, ⟨h0, h1, h2, hs⟩, rfl⟩ := hp
  obtain ⟨a1, a2, a3, a4, a5, a6⟩ := ha
  obtain ⟨b1, b2, b3, b4, b5, b6⟩ := hb
  obtain ⟨c1, c2, c3, c4, c5, c6⟩ := hc
  have hx := between (l := (combine l0 l1 l2 a b c).x) h0 h1 h2 hs ⟨a1, a2⟩ ⟨b1, b2⟩ ⟨c1, c2⟩ rfl
  have hy := between (l := (combine l0 l1 l2 a b c).y) h0 h1 h2 hs ⟨a3, a4⟩ ⟨b3, b4⟩ ⟨c3, c4⟩ rfl
  have hz := between (l := (combine l0 l1 l2 a b c).z) h0 h1 h2 hs ⟨a5, a6⟩ ⟨b5, b6⟩ ⟨c5, c6⟩ rfl
  exact ⟨hx.1, hx.2, hy.1, hy.2, hz.1, hz.2⟩

private theorem lower_is {a b : Ext} {x y : ℝ} (ha : a.Is x) (hb : b.Is y) : (BBox.lower a b).Is (min x y) := by
  simp only [BBox.lower, hb.lt ha, decide_eq_true_eq]
  split_ifs with h
  · rw [min_eq_right h.le]; exact hb
  · rw [min_eq_left (not_lt.1 h)]; exact ha

private theorem upper_is {a b : Ext} {x y : ℝ} (ha : a.Is x) (hb : b.Is y) : (BBox.upper a b).Is (max x y) := by
  simp only [BBox.upper, ha.lt hb, decide_eq_true_eq]
  split_ifs with h
  · rw [max_eq_right h.le]; exact hb
  · rw [max_eq_left (not_lt.1 h)]; exact ha

private theorem Vec.Is.check {a : Vec Ext} {x : Vec ℝ} (ha : a.Is x) : checkNaNVec a = .ok () :=
  Vec.IsFin.check ⟨⟨_, ha.1⟩, ⟨_, ha.2.1⟩, ⟨_, ha.2.2⟩⟩

private theorem fold_is (l : List (Vec Ext)) : ∀ (L P : List (Vec ℝ)) (b : BBox Ext) (B : BBox ℝ),
    List.Forall₂ Vec.Is l L → b.Is B → B.Spans P →
    ∃ b' B', l.foldlM BBox.hullStep b = .ok b' ∧ b'.Is B' ∧ B'.Spans (P ++ L) := by
  induction l with
  | nil =>
    intro L P b B hl hb hs
    cases hl
    exact ⟨b, B, rfl, hb, by simpa using hs⟩
  | cons v l ih =>
    intro L P b B hl hb hs
    cases hl with
    | @cons _ V _ L hv hl =>
      let B1 : BBox ℝ := ⟨⟨min B.min.x V.x, min B.min.y V.y, min B.min.z V.z⟩,
        ⟨max B.max.x V.x, max B.max.y V.y, max B.max.z V.z⟩⟩
      have hs1 : B1.Spans (P ++ [V]) := by
        obtain ⟨h, ⟨a, ha, ea⟩, ⟨b, hb, eb⟩, ⟨c, hc, ec⟩, ⟨d, hd, ed⟩, ⟨e, he, ee⟩, ⟨f, hf, ef⟩⟩ := hs
        refine ⟨?_, ?_, ?_, ?_, ?_, ?_, ?_⟩
        · intro p hp
          rcases List.mem_append.1 hp with hp | hp
          · obtain ⟨a, b, c, d, e, f⟩ := h p hp
            exact ⟨(min_le_left _ _).trans a, b.trans (le_max_left _ _), (min_le_left _ _).trans c,
              d.trans (le_max_left _ _), (min_le_left _ _).trans e, f.trans (le_max_left _ _)⟩
          · rw [List.mem_singleton.1 hp]
            exact ⟨min_le_right _ _, le_max_right _ _, min_le_right _ _, le_max_right _ _, min_le_right _ _,
              le_max_right _ _⟩
        · rcases min_choice B.min.x V.x with k | k
          · exact ⟨a, by simp [ha], k.trans ea⟩
          · exact ⟨V, by simp, k⟩
        · rcases max_choice B.max.x V.x with k | k
          · exact ⟨b, by simp [hb], k.trans eb⟩
          · exact ⟨V, by simp, k⟩
        · rcases min_choice B.min.y V.y with k | k
          · exact ⟨c, by simp [hc], k.trans ec⟩
          · exact ⟨V, by simp, k⟩
        · rcases max_choice B.max.y V.y with k | k
          · exact ⟨d, by simp [hd], k.trans ed⟩
          · exact ⟨V, by simp, k⟩
        · rcases min_choice B.min.z V.z with k | k
          · exact ⟨e, by simp [he], k.trans ee⟩
          · exact ⟨V, by simp, k⟩
        · rcases max_choice B.max.z V.z with k | k
          · exact ⟨f, by simp [hf], k.trans ef⟩
          · exact ⟨V, by simp, k⟩
      have hb1 : (⟨⟨BBox.lower b.min.x v.x, BBox.lower b.min.y v.y, BBox.lower b.min.z v.z⟩,
          ⟨BBox.upper b.max.x v.x, BBox.upper b.max.y v.y, BBox.upper b.max.z v.z⟩⟩ : BBox Ext).Is B1 :=
        ⟨⟨lower_is hb.1.1 hv.1, lower_is hb.1.2.1 hv.2.1, lower_is hb.1.2.2 hv.2.2⟩,
          ⟨upper_is hb.2.1 hv.1, upper_is hb.2.2.1 hv.2.1, upper_is hb.2.2.2 hv.2.2⟩⟩
      obtain ⟨b', B', e, h1, h2⟩ := ih L (P ++ [V]) _ B1 hl hb1 hs1
      refine ⟨b', B', ?_, h1, by simpa using h2⟩
      rw [List.foldlM_cons, BBox.hullStep, hv.check, ok_bind]
      exact e

/-- The box of a list of finite points is the smallest box that holds them. -/
theorem fromHull_is (l : List (Vec Ext)) (L : List (Vec ℝ)) (hne : l ≠ []) (hl : List.Forall₂ Vec.Is l L) :
    ∃ b B, BBox.fromHull l = .ok b ∧ b.Is B ∧ B.Spans L := by
  cases hl with
  | nil => exact absurd rfl hne
  | @cons v V l L hv hl =>
    obtain ⟨b, B, e, hb, hs⟩ := fold_is (v :: l) (V :: L) [V] ⟨v, v⟩ ⟨V, V⟩ (.cons hv hl) ⟨hv, hv⟩
      ⟨by simp [BBox.Mem], by simp⟩
    refine ⟨b, B, ?_, hb, hs.congr (by simp)⟩
    rw [BBox.fromHull, e, ok_bind, hb.1.check, ok_bind, hb.2.check, ok_bind]
    rfl

end BR
