import Verif.Lemmas.BoxSeen
import Verif.Props.C86_BallHit

/-! C91: in double precision, boxes are seen where they are. -/

namespace BR

variable {M : Type}

/-- What a box that is hit reports. -/
private theorem box_cases (m : Option M) {b : BBox Flo} {r : Ray Flo} {s d lo hi : Vec ℝ} (h : LookingAtBox r b s d lo hi)
    {hit : HitRecord Flo M} {r' : Ray Flo} (he : (Obj.box b m).intersect r = .ok (hit, r')) :
    r' = r ∧ (((b.intersect r >. lit 0) = false ∧ hit = HitRecord.miss) ∨
      ((b.intersect r >. lit 0) = true ∧ ∃ n, b.normal (r.at (b.intersect r)) = .ok n ∧
        hit = ⟨b.intersect r, n, (r.at (b.intersect r)).sub b.min, m⟩)) := by
  rw [Obj.intersect] at he
  obtain ⟨hit', e', he⟩ := bind_eq_ok.1 he
  simp only [pure_ok, Except.ok.injEq, Prod.mk.injEq] at he
  obtain ⟨rfl, rfl⟩ := he
  refine ⟨rfl, ?_⟩
  unfold BBox.hit at e'
  dsimp only at e'
  cases ht : (b.intersect r >. lit 0) with
  | false =>
    rw [ht] at e'
    simp only [Bool.not_false, if_true, Except.ok.injEq] at e'
    exact .inl ⟨rfl, e'.symm⟩
  | true =>
    rw [ht] at e'
    simp only [Bool.not_true, Bool.false_eq_true, if_false] at e'
    obtain ⟨n, hn, e'⟩ := bind_eq_ok.1 e'
    simp only [pure_ok, Except.ok.injEq] at e'
    exact .inr ⟨rfl, n, hn, e'.symm⟩

private theorem miss_not_pos : ((HitRecord.miss : HitRecord Flo M).t >. lit 0) = false := by
  have : ((lit 0 : Flo) <. lit 0) = false := by
    rw [Flo.lt_is Ball.flo_zero Ball.flo_zero]; simp
  exact this

/-- **C91, an answer is always given.** -/
theorem C91_answers (m : Option M) (b : BBox Flo) (r : Ray Flo) (s d lo hi : Vec ℝ) (h : LookingAtBox r b s d lo hi) :
    ∃ hit, (Obj.box b m).intersect r = .ok (hit, r) := by
  obtain ⟨hit, e⟩ := h.answers m
  exact ⟨hit, by rw [Obj.intersect, e]; rfl⟩

/-- **C91, what is reported is there.** If a box is reported as hit then the point of the ray at the reported distance,
in exact arithmetic, lies in front and within `2^-38` of the surface of the box. -/
theorem C91_on (m : Option M) (b : BBox Flo) (r : Ray Flo) (s d lo hi : Vec ℝ) (h : LookingAtBox r b s d lo hi)
    (hit : HitRecord Flo M) (r' : Ray Flo) (he : (Obj.box b m).intersect r = .ok (hit, r')) (hpos : (hit.t >. lit 0) = true) :
    ∃ T, hit.t.Is T ∧ 0 < T ∧ OnBox lo hi (1 / 2 ^ 38) (along s d T) ∧ hit.mat = m := by
  obtain ⟨-, ⟨-, e⟩ | ⟨ht, n, -, e⟩⟩ := box_cases m h he
  · rw [e, miss_not_pos] at hpos; cases hpos
  · obtain ⟨T, hT, hT0, hT1⟩ := h.param ht
    have hb := h.between ht hT hT0.le hT1
    refine ⟨T, by rw [e]; exact hT, hT0, ⟨⟨hb 0, hb 1, hb 2⟩, ?_⟩, by rw [e]⟩
    obtain ⟨i, hf⟩ := h.face ht hT hT0.le hT1
    have w : ∀ {x : ℝ}, x ≤ 1 / 2 ^ 40 → x ≤ 1 / 2 ^ 38 := fun hx => hx.trans (by norm_num)
    fin_cases i
    · rcases hf with hf | hf
      · exact .inl (w hf)
      · exact .inr (.inl (w hf))
    · rcases hf with hf | hf
      · exact .inr (.inr (.inl (w hf)))
      · exact .inr (.inr (.inr (.inl (w hf))))
    · rcases hf with hf | hf
      · exact .inr (.inr (.inr (.inr (.inl (w hf)))))
      · exact .inr (.inr (.inr (.inr (.inr (w hf)))))

/-- **C91, nothing is reported where nothing is.** If no point ahead is within `2^-38` of the surface, no hit is
reported. -/
theorem C91_missed (m : Option M) (b : BBox Flo) (r : Ray Flo) (s d lo hi : Vec ℝ) (h : LookingAtBox r b s d lo hi)
    (hclear : ∀ T, 0 < T → ¬OnBox lo hi (1 / 2 ^ 38) (along s d T)) :
    (Obj.box b m).intersect r = .ok (HitRecord.miss, r) := by
  obtain ⟨hit, e⟩ := C91_answers m b r s d lo hi h
  obtain ⟨-, ⟨-, e'⟩ | ⟨ht, n, -, e'⟩⟩ := box_cases m h e
  · rw [e, e']
  · obtain ⟨T, -, hT, hon, -⟩ := C91_on m b r s d lo hi h hit r e (by rw [e']; exact ht)
    exact absurd hon (hclear T hT)

/-- **C91, what is there is reported.** If the ray starts clearly outside or clearly inside the box (by `2^-38` or more),
and has a point ahead that is clearly inside, then the box is reported as hit, at a point within `2^-38` of its surface.
Seen from outside, no earlier point of the ray is clearly inside; seen from inside, all earlier points are inside, up to
`2^-38`. -/
theorem C91_seen (m : Option M) (b : BBox Flo) (r : Ray Flo) (s d lo hi : Vec ℝ) (h : LookingAtBox r b s d lo hi)
    (hstart : ¬InBox lo hi (1 / 2 ^ 38) s ∨ InBox lo hi (-(1 / 2 ^ 38)) s)
    (hin : ∃ T0, 0 < T0 ∧ InBox lo hi (-(1 / 2 ^ 38)) (along s d T0)) :
    ∃ hit, (Obj.box b m).intersect r = .ok (hit, r) ∧ hit.mat = m ∧ ∃ T, hit.t.Is T ∧ 0 < T ∧
      OnBox lo hi (1 / 2 ^ 38) (along s d T) ∧
      (¬InBox lo hi (1 / 2 ^ 38) s → ∀ T', 0 < T' → T' < T → ¬InBox lo hi (-(1 / 2 ^ 38)) (along s d T')) ∧
      (InBox lo hi (-(1 / 2 ^ 38)) s → ∀ T', 0 < T' → T' < T → InBox lo hi (1 / 2 ^ 38) (along s d T')) := by
  obtain ⟨T0, hT0, hin⟩ := hin
  -- points clearly inside
  have clear : ∀ {T' : ℝ}, 0 ≤ T' → InBox lo hi (-(1 / 2 ^ 38)) (along s d T') → T' ≤ 2 ^ 14 ∧
      ∀ i, (lo.get i + 1 / 2 ^ 38 ≤ s.get i + T' * d.get i ∧ s.get i + T' * d.get i ≤ hi.get i - 1 / 2 ^ 38) ∧
      ∃ a c, CmpModel.key (axisSlab b r i).1 = some a ∧ CmpModel.key (axisSlab b r i).2 = some c ∧ a < T' ∧ (T' : EReal) < c := by
    intro T' h0 hi'
    have hsoon : T' ≤ 2 ^ 14 := by
      refine h.soon h0 ?_
      unfold InBox at hi' ⊢
      norm_num at hi' ⊢
      obtain ⟨⟨_, _⟩, ⟨_, _⟩, ⟨_, _⟩⟩ := hi'
      refine ⟨⟨?_, ?_⟩, ⟨?_, ?_⟩, ⟨?_, ?_⟩⟩ <;> linarith
    refine ⟨hsoon, fun i => ?_⟩
    obtain ⟨a1, a2, a3, a4, a5, a6, a7, a8, a9⟩ := h.axis i
    have hax : lo.get i + 1 / 2 ^ 38 ≤ s.get i + T' * d.get i ∧ s.get i + T' * d.get i ≤ hi.get i - 1 / 2 ^ 38 := by
      unfold InBox along at hi'
      simp only [sub_neg_eq_add, ← sub_eq_add_neg] at hi'
      fin_cases i
      · exact hi'.1
      · exact hi'.2.1
      · exact hi'.2.2
    exact ⟨hax, slab_clear a3 a4 a1 a2 a6 a7 a5 a9 h0 hsoon hax.1 hax.2⟩
  -- seen from outside, the box is entered ahead, and before any point clearly inside
  have enter : ¬InBox lo hi (1 / 2 ^ 38) s → ∀ {T' : ℝ}, 0 < T' → InBox lo hi (-(1 / 2 ^ 38)) (along s d T') →
      ∃ p, CmpModel.key (b.intersect r) = some p ∧ 0 < p ∧ p < T' := by
    intro hout T' h0 hi'
    obtain ⟨hs, hcl⟩ := clear h0.le hi'
    obtain ⟨p, q, hp, hq, hmax, -, -, hrep⟩ := box_report b r (fun i => (hcl i).2)
    have hpp : 0 < p := by
      have : ∃ i : Fin 3, s.get i ≤ lo.get i - 1 / 2 ^ 38 ∨ hi.get i + 1 / 2 ^ 38 ≤ s.get i := by
        by_contra hn
        rw [not_exists] at hn
        have h0 := hn 0
        have h1 := hn 1
        have h2 := hn 2
        simp only [not_or, not_le, Vec.get] at h0 h1 h2
        exact hout ⟨⟨h0.1.le, h0.2.le⟩, ⟨h1.1.le, h1.2.le⟩, ⟨h2.1.le, h2.2.le⟩⟩
      obtain ⟨i, hi1⟩ := this
      obtain ⟨a1, a2, a3, a4, a5, a6, a7, a8, a9⟩ := h.axis i
      obtain ⟨hax, a, c, ha, -⟩ := hcl i
      exact lt_of_lt_of_le (slab_enter a3 a4 a1 a2 a6 a7 a5 a9 h0.le hs hax.1 hax.2 hi1 ha) (hmax i a ha)
    exact ⟨p, hrep hpp.le, hpp, hp⟩
  have e0 : along s d 0 = s := by simp [along]
  -- seen from inside, the box is left ahead
  have leave : InBox lo hi (-(1 / 2 ^ 38)) s → ∃ q, CmpModel.key (b.intersect r) = some q ∧ 0 < q := by
    intro hins
    obtain ⟨hs, hcl⟩ := clear le_rfl (by rw [e0]; exact hins)
    obtain ⟨p, q, hp, hq, hmax, -, hrep, -⟩ := box_report b r (fun i => (hcl i).2)
    exact ⟨q, hrep (by exact_mod_cast hp), by exact_mod_cast hq⟩
  have ht : (b.intersect r >. lit 0) = true := by
    obtain ⟨q, hq, hpos⟩ : ∃ q, CmpModel.key (b.intersect r) = some q ∧ 0 < q := by
      rcases hstart with ho | hi'
      · obtain ⟨p, hp, hpos, -⟩ := enter ho hT0 hin
        exact ⟨p, hp, hpos⟩
      · exact leave hi'
    exact (CmpModel.lt_iff _ _).2 ⟨_, _, CmpModel.key_zero, hq, hpos⟩
  obtain ⟨hit, e⟩ := C91_answers m b r s d lo hi h
  have hte : hit.t = b.intersect r := by
    obtain ⟨-, ⟨hf, -⟩ | ⟨-, n, -, e'⟩⟩ := box_cases m h e
    · rw [ht] at hf; cases hf
    · rw [e']
  obtain ⟨T, hT, hTpos, hon, hmat⟩ := C91_on m b r s d lo hi h hit r e (by rw [hte]; exact ht)
  refine ⟨hit, e, hmat, T, hT, hTpos, hon, ?_, ?_⟩
  · intro hout T' h0 hlt hi'
    obtain ⟨p, hp, -, hp'⟩ := enter hout h0 hi'
    rw [← hte, hT.key, Option.some.injEq] at hp
    subst hp
    exact absurd (EReal.coe_lt_coe_iff.1 hp') (not_lt.2 hlt.le)
  · -- between two points of a convex set
    intro hins T' h0 hlt
    have conv : ∀ {l u a δ e : ℝ}, 0 ≤ e → l + e ≤ a → a ≤ u - e → l - e ≤ a + T * δ → a + T * δ ≤ u + e →
        l - e ≤ a + T' * δ ∧ a + T' * δ ≤ u + e := by
      intro l u a δ e he h1 h2 h3 h4
      rcases le_total 0 δ with hδ | hδ
      · have := mul_le_mul_of_nonneg_right hlt.le hδ
        have := mul_nonneg h0.le hδ
        constructor <;> linarith
      · have := mul_le_mul_of_nonpos_right hlt.le hδ
        have := mul_nonpos_of_nonneg_of_nonpos h0.le hδ
        constructor <;> linarith
    obtain ⟨⟨⟨x1, x2⟩, ⟨y1, y2⟩, ⟨z1, z2⟩⟩, -⟩ := hon
    unfold InBox at hins
    simp only [sub_neg_eq_add, ← sub_eq_add_neg] at hins
    obtain ⟨⟨u1, u2⟩, ⟨v1, v2⟩, ⟨w1, w2⟩⟩ := hins
    exact ⟨conv (by positivity) u1 u2 x1 x2, conv (by positivity) v1 v2 y1 y2, conv (by positivity) w1 w2 z1 z2⟩

/-- **C91, normals and texture coordinates.** If a box is reported as hit, then the normal is exactly the outward unit
vector of a face within `2^-26` of the point that is hit, and the local coordinates differ by at most `2^-38` from the
position relative to the lower corner. -/
theorem C91_normal (m : Option M) (b : BBox Flo) (r : Ray Flo) (s d lo hi : Vec ℝ) (h : LookingAtBox r b s d lo hi)
    (hit : HitRecord Flo M) (r' : Ray Flo) (he : (Obj.box b m).intersect r = .ok (hit, r')) (hpos : (hit.t >. lit 0) = true) :
    ∃ T n loc, hit.t.Is T ∧ hit.normal.FIs n ∧ hit.loc.FIs loc ∧ FaceNormal lo hi (1 / 2 ^ 26) (along s d T) n ∧
      Within (1 / 2 ^ 38) (loc.sub ((along s d T).sub lo)) := by
  obtain ⟨-, ⟨-, e⟩ | ⟨ht, n, hn, e⟩⟩ := box_cases m h he
  · rw [e, miss_not_pos] at hpos; cases hpos
  obtain ⟨T, hT, hT0, hT1⟩ := h.param ht
  have hp := h.point ht hT hT0.le hT1
  have hloc : ∀ i, ∃ l, ((r.start.get i + b.intersect r * r.dir.get i) - b.min.get i).Is l ∧
      |l - (s.get i + T * d.get i - lo.get i)| ≤ 1 / 2 ^ 38 := by
    intro i
    obtain ⟨a1, a2, a3, a4, a5, a6, a7, a8, a9⟩ := h.axis i
    obtain ⟨⟨l, hl, hle⟩, -⟩ := (hp i).sub (1 / 2 ^ 38) 2049 (a3.near a6)
    exact ⟨l, hl, hle⟩
  obtain ⟨l0, hl0, el0⟩ := hloc 0
  obtain ⟨l1, hl1, el1⟩ := hloc 1
  obtain ⟨l2, hl2, el2⟩ := hloc 2
  have mn := fun i => (h.axis i).2.2.1
  have mx := fun i => (h.axis i).2.2.2.1
  have bmn := fun i => (h.axis i).2.2.2.2.2.1
  have bmx := fun i => (h.axis i).2.2.2.2.2.2.1
  have face : ∃ n', n.FIs n' ∧ FaceNormal lo hi (1 / 2 ^ 26) (along s d T) n' := by
    have i0 := flo_int_is 0 (by norm_num)
    have i1 := flo_int_is 1 (by norm_num)
    norm_num at i0 i1
    have neg : ∀ {a : Flo} {x : ℝ}, a.Is x → (x = 0 ∨ x = 1) → (lit (-1) * a).Is (-x) := by
      intro a x ha hx
      have im := flo_int_is (-1) (by norm_num)
      norm_num at im
      have h2 := Flo.mul_is im ha (by rcases hx with rfl | rfl <;> norm_num)
      refine h2.of_eq ?_
      rcases hx with rfl | rfl
      · rw [mul_zero, roundBits_zero, neg_zero]
      · have := roundBits_exact 53 (-1) 0 (by norm_num) (by norm_num)
        norm_num at this ⊢
        exact this
    have neg0 : (lit (-1) * lit 0 : Flo).Is 0 := (neg i0 (.inl rfl)).of_eq (by norm_num)
    have neg1 : (lit (-1) * lit 1 : Flo).Is (-1) := neg i1 (.inr rfl)
    unfold BBox.normal Ray.at Vec.madd at hn
    dsimp only at hn
    split at hn
    next ha =>
      cases hn
      exact ⟨⟨-1, 0, 0⟩, ⟨neg1, neg0, neg0⟩, .inl ⟨rfl, approx_near (hp 0) (mn 0) (bmn 0) ha⟩⟩
    split at hn
    next ha =>
      cases hn
      exact ⟨⟨1, 0, 0⟩, ⟨i1, i0, i0⟩, .inr (.inl ⟨rfl, approx_near (hp 0) (mx 0) (bmx 0) ha⟩)⟩
    split at hn
    next ha =>
      cases hn
      exact ⟨⟨0, -1, 0⟩, ⟨neg0, neg1, neg0⟩, .inr (.inr (.inl ⟨rfl, approx_near (hp 1) (mn 1) (bmn 1) ha⟩))⟩
    split at hn
    next ha =>
      cases hn
      exact ⟨⟨0, 1, 0⟩, ⟨i0, i1, i0⟩, .inr (.inr (.inr (.inl ⟨rfl, approx_near (hp 1) (mx 1) (bmx 1) ha⟩)))⟩
    split at hn
    next ha =>
      cases hn
      exact ⟨⟨0, 0, -1⟩, ⟨neg0, neg0, neg1⟩, .inr (.inr (.inr (.inr (.inl ⟨rfl, approx_near (hp 2) (mn 2) (bmn 2) ha⟩))))⟩
    split at hn
    next ha =>
      cases hn
      exact ⟨⟨0, 0, 1⟩, ⟨i0, i0, i1⟩, .inr (.inr (.inr (.inr (.inr ⟨rfl, approx_near (hp 2) (mx 2) (bmx 2) ha⟩))))⟩
    · cases hn
  obtain ⟨n', hn', hf⟩ := face
  exact ⟨T, n', ⟨l0, l1, l2⟩, by rw [e]; exact hT, by rw [e]; exact hn', by rw [e]; exact ⟨hl0, hl1, hl2⟩, hf, el0, el1, el2⟩

/-- A view from the origin along the third axis, of a box that begins at distance two. -/
theorem lookingAtBox_example : LookingAtBox ⟨⟨lit 0, lit 0, lit 0⟩, ⟨lit 0, lit 0, lit 1⟩⟩
    ⟨⟨lit (-1), lit (-1), lit 2⟩, ⟨lit 1, lit 1, lit 4⟩⟩ ⟨0, 0, 0⟩ ⟨0, 0, 1⟩ ⟨-1, -1, 2⟩ ⟨1, 1, 4⟩ := by
  have i0 := flo_int_is 0 (by norm_num)
  have i1 := flo_int_is 1 (by norm_num)
  have i2 := flo_int_is 2 (by norm_num)
  have i4 := flo_int_is 4 (by norm_num)
  have im := flo_int_is (-1) (by norm_num)
  norm_num at i0 i1 i2 i4 im
  constructor
  · exact ⟨i0, i0, i0⟩
  · exact ⟨i0, i0, i1⟩
  · exact ⟨im, im, i2⟩
  · exact ⟨i1, i1, i4⟩
  all_goals norm_num [Within]

/-- Such a view meets the conditions: the box is reported at distance two, up to `2^-38`, with the normal of the face that
looks at the viewer. -/
example : ∃ hit, (Obj.box ⟨⟨lit (-1), lit (-1), lit 2⟩, ⟨lit 1, lit 1, lit 4⟩⟩ (none : Option Unit)).intersect
    (⟨⟨lit 0, lit 0, lit 0⟩, ⟨lit 0, lit 0, lit 1⟩⟩ : Ray Flo) = .ok (hit, ⟨⟨lit 0, lit 0, lit 0⟩, ⟨lit 0, lit 0, lit 1⟩⟩) ∧
    (hit.t >. lit 0) = true ∧ (∃ T, hit.t.Is T ∧ |T - 2| ≤ 1 / 2 ^ 38) ∧ hit.normal.FIs ⟨0, 0, -1⟩ := by
  obtain ⟨hit, e, -, T, ht, hT, hon, hout, -⟩ := C91_seen (none : Option Unit) _ _ _ _ _ _ lookingAtBox_example
    (.inl (by norm_num [InBox])) ⟨3, by norm_num, by norm_num [InBox, along]⟩
  have hpos : (hit.t >. lit 0) = true := by
    rw [show (hit.t >. lit 0) = (lit 0 <. hit.t) from rfl, Flo.lt_is Ball.flo_zero ht]
    exact decide_eq_true hT
  have hT2 : |T - 2| ≤ 1 / 2 ^ 38 := by
    rcases lt_or_ge 3 T with h3 | h3
    · exact absurd (by norm_num [InBox, along]) (hout (by norm_num [InBox]) 3 (by norm_num) h3)
    · obtain ⟨-, hf⟩ := hon
      norm_num [along] at hf
      rcases hf with hf | hf
      · norm_num; exact hf
      · exfalso; rw [abs_le] at hf; linarith [hf.1]
  refine ⟨hit, e, hpos, ⟨T, ht, hT2⟩, ?_⟩
  obtain ⟨T', n, loc, ht', hn, -, hface, -⟩ := C91_normal (none : Option Unit) _ _ _ _ _ _ lookingAtBox_example hit _ e hpos
  have hTT : T' = T := by
    have := ht'.key.symm.trans ht.key
    rw [Option.some.injEq, EReal.coe_eq_coe_iff] at this
    exact this
  subst hTT
  rw [abs_le] at hT2
  unfold FaceNormal along at hface
  norm_num at hface
  rcases hface with hface | hface
  · rw [hface.1] at hn; exact hn
  · exfalso
    have := hface.2
    rw [abs_le] at this
    norm_num at hT2
    linarith [this.1, hT2.2]

/-- … and seen the other way nothing is reported. -/
example : (Obj.box ⟨⟨lit (-1), lit (-1), lit 2⟩, ⟨lit 1, lit 1, lit 4⟩⟩ (none : Option Unit)).intersect
    (⟨⟨lit 0, lit 0, lit 0⟩, ⟨lit 0, lit 0, lit (-1)⟩⟩ : Ray Flo) =
      .ok (HitRecord.miss, ⟨⟨lit 0, lit 0, lit 0⟩, ⟨lit 0, lit 0, lit (-1)⟩⟩) := by
  have h := lookingAtBox_example
  have im := flo_int_is (-1) (by norm_num)
  norm_num at im
  refine C91_missed _ _ _ ⟨0, 0, 0⟩ ⟨0, 0, -1⟩ ⟨-1, -1, 2⟩ ⟨1, 1, 4⟩ ⟨h.start, ⟨h.dir.1, h.dir.2.1, im⟩, h.min, h.max, h.start_le,
    h.min_le, h.max_le, h.ordered, by norm_num, by norm_num⟩ ?_
  rintro T hT ⟨⟨-, -, hz, -⟩, -⟩
  norm_num [along] at hz
  linarith

end BR
