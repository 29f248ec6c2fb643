import Verif.Model.PlyFile
import Verif.Spec.PlyFile
import Verif.Lemmas.Text
import Verif.Lemmas.GoM

namespace BR.PlyFile

open Text

variable {F : Type}

theorem check_ok {α : Type} {o : Option α} {a : α} : check o = .ok a ↔ o = some a := by
  cases o <;> simp [check, panicf]

theorem number_iff (w : List Char) (z : Int) : parseInt 64 w = some z ↔ Number w z := by
  rw [parseInt_iff]; rfl

theorem field_ok {fs : List (List Char)} {i : Nat} {w : List Char} : field fs i = .ok w ↔ fs[i]? = some w := by
  unfold field
  split
  · rename_i f h; rw [h]; simp
  · rename_i h; rw [h]; simp

theorem atoiField_ok {fs : List (List Char)} {i : Nat} {z : Int} :
    atoiField fs i = .ok z ↔ ∃ w, fs[i]? = some w ∧ Number w z := by
  unfold atoiField
  simp only [bind_eq_ok, field_ok, check_ok, number_iff]

theorem readHeader_iff (ls : List (List Char)) (nv nf nv' nf' : Int) (rest : List (List Char)) :
    readHeader ls nv nf = .ok (nv', nf', rest) ↔
      ∃ hdr items lend, ls = hdr ++ lend :: rest ∧ trimSpace lend = "end_header".toList ∧
        List.Forall₂ (fun l it => HeaderMeans (trimSpace l) it) hdr items ∧ nv' = numVertices nv items ∧
          nf' = numFaces nf items := by
  induction ls generalizing nv nf with
  | nil =>
    constructor
    · intro h; cases h
    · rintro ⟨hdr, items, lend, h, -⟩; simp at h
  | cons line ls ih =>
    rw [readHeader]
    have step : ∀ (it : HeaderItem), HeaderMeans (trimSpace line) it → trimSpace line ≠ "end_header".toList →
        (∀ it', HeaderMeans (trimSpace line) it' → it' = it) → ∀ nv1 nf1,
        (∀ is, numVertices nv (it :: is) = numVertices nv1 is) → (∀ is, numFaces nf (it :: is) = numFaces nf1 is) →
        (readHeader ls nv1 nf1 = .ok (nv', nf', rest) ↔
          ∃ hdr items lend, line :: ls = hdr ++ lend :: rest ∧ trimSpace lend = "end_header".toList ∧
            List.Forall₂ (fun l it => HeaderMeans (trimSpace l) it) hdr items ∧ nv' = numVertices nv items ∧
              nf' = numFaces nf items) := by
      intro it hm hne huniq nv1 nf1 h1 h2
      rw [ih]
      constructor
      · rintro ⟨hdr, items, lend, rfl, he, hf, rfl, rfl⟩
        exact ⟨line :: hdr, it :: items, lend, rfl, he, .cons hm hf, (h1 _).symm, (h2 _).symm⟩
      · rintro ⟨hdr, items, lend, hl, he, hf, rfl, rfl⟩
        cases hdr with
        | nil => cases hl; exact absurd he hne
        | cons a hdr =>
          cases items with
          | nil => cases hf
          | cons it' items =>
            obtain ⟨hf1, hf2⟩ := List.forall₂_cons.1 hf
            rw [List.cons_append] at hl
            obtain ⟨rfl, rfl⟩ := List.cons.inj hl
            have := huniq _ hf1
            subst this
            exact ⟨hdr, items, lend, rfl, he, hf2, h1 _, h2 _⟩
    by_cases h1 : trimSpace line = "end_header".toList
    · rw [if_pos h1]
      constructor
      · intro h; cases h; exact ⟨[], [], line, rfl, h1, .nil, rfl, rfl⟩
      · rintro ⟨hdr, items, lend, hl, he, hf, rfl, rfl⟩
        cases hdr with
        | nil => cases hl; cases hf; rfl
        | cons a hdr =>
          exfalso
          cases items with
          | nil => cases hf
          | cons it items =>
            obtain ⟨hf1, -⟩ := List.forall₂_cons.1 hf
            obtain ⟨rfl, -⟩ := List.cons.inj hl
            rw [h1] at hf1
            cases it with
            | vertices n => obtain ⟨w, h, -⟩ := hf1; simp at h
            | faces n => obtain ⟨w, h, -⟩ := hf1; simp at h
            | other => exact hf1.1 rfl
    rw [if_neg h1]
    by_cases h2 : "element vertex ".toList.isPrefixOf (trimSpace line) = true
    · rw [if_pos h2]
      obtain ⟨w, hw⟩ := List.isPrefixOf_iff_prefix.1 h2
      have hdrop : (trimSpace line).drop "element vertex ".toList.length = w := by rw [← hw, List.drop_left]
      rw [hdrop]
      cases hp : parseInt 64 w with
      | none =>
        constructor
        · intro h; cases h
        · rintro ⟨hdr, items, lend, hl, he, hf, rfl, rfl⟩
          exfalso
          cases hdr with
          | nil => cases hl; exact h1 he
          | cons a hdr =>
            cases items with
            | nil => cases hf
            | cons it items =>
              obtain ⟨hf1, -⟩ := List.forall₂_cons.1 hf
              obtain ⟨rfl, -⟩ := List.cons.inj hl
              cases it with
              | vertices n =>
                obtain ⟨w', h, hn⟩ := hf1
                rw [← hw] at h
                have := List.append_cancel_left h
                subst this
                rw [← number_iff, hp] at hn; cases hn
              | faces n => obtain ⟨w', h, -⟩ := hf1; rw [← hw] at h; simp at h
              | other => exact hf1.2.1 ⟨w, hw⟩
      | some n =>
        have hn := (number_iff _ _).1 hp
        refine step (.vertices n) ⟨w, hw.symm, hn⟩ h1 ?_ n nf (fun _ => rfl) (fun _ => rfl)
        intro it' h'
        cases it' with
        | vertices m =>
          obtain ⟨w', h, hm⟩ := h'
          rw [← hw] at h
          have := List.append_cancel_left h
          subst this
          rw [← number_iff, hp] at hm; cases hm; rfl
        | faces m => obtain ⟨w', h, -⟩ := h'; rw [← hw] at h; simp at h
        | other => exact absurd ⟨w, hw⟩ h'.2.1
    rw [if_neg h2]
    by_cases h3 : "element face ".toList.isPrefixOf (trimSpace line) = true
    · rw [if_pos h3]
      obtain ⟨w, hw⟩ := List.isPrefixOf_iff_prefix.1 h3
      have hdrop : (trimSpace line).drop "element face ".toList.length = w := by rw [← hw, List.drop_left]
      rw [hdrop]
      cases hp : parseInt 64 w with
      | none =>
        constructor
        · intro h; cases h
        · rintro ⟨hdr, items, lend, hl, he, hf, rfl, rfl⟩
          exfalso
          cases hdr with
          | nil => cases hl; exact h1 he
          | cons a hdr =>
            cases items with
            | nil => cases hf
            | cons it items =>
              obtain ⟨hf1, -⟩ := List.forall₂_cons.1 hf
              obtain ⟨rfl, -⟩ := List.cons.inj hl
              cases it with
              | faces n =>
                obtain ⟨w', h, hn⟩ := hf1
                rw [← hw] at h
                have := List.append_cancel_left h
                subst this
                rw [← number_iff, hp] at hn; cases hn
              | vertices n => obtain ⟨w', h, -⟩ := hf1; rw [← hw] at h; simp at h
              | other => exact hf1.2.2 ⟨w, hw⟩
      | some n =>
        have hn := (number_iff _ _).1 hp
        refine step (.faces n) ⟨w, hw.symm, hn⟩ h1 ?_ nv n (fun _ => rfl) (fun _ => rfl)
        intro it' h'
        cases it' with
        | faces m =>
          obtain ⟨w', h, hm⟩ := h'
          rw [← hw] at h
          have := List.append_cancel_left h
          subst this
          rw [← number_iff, hp] at hm; cases hm; rfl
        | vertices m => obtain ⟨w', h, -⟩ := h'; rw [← hw] at h; simp at h
        | other => exact absurd ⟨w, hw⟩ h'.2.2
    rw [if_neg h3]
    have h2' : ¬ "element vertex ".toList <+: trimSpace line := fun h => h2 (List.isPrefixOf_iff_prefix.2 h)
    have h3' : ¬ "element face ".toList <+: trimSpace line := fun h => h3 (List.isPrefixOf_iff_prefix.2 h)
    refine step .other ⟨h1, h2', h3'⟩ h1 ?_ nv nf (fun _ => rfl) (fun _ => rfl)
    intro it' h'
    cases it' with
    | vertices m => obtain ⟨w', h, -⟩ := h'; exact absurd ⟨w', h.symm⟩ h2'
    | faces m => obtain ⟨w', h, -⟩ := h'; exact absurd ⟨w', h.symm⟩ h3'
    | other => rfl

theorem readVertex_iff (rd : Reader F) (l : List Char) (v : Vec F) :
    readVertex rd (trimSpace l) = .ok v ↔ VertexLine rd l v := by
  unfold readVertex VertexLine
  simp only [bind_eq_ok, field_ok, check_ok, fields_trimSpace]
  constructor
  · rintro ⟨x, hx, a, ha, y, hy, b, hb, z, hz, c, hc, h⟩
    cases h
    match hf : fields l with
    | [] => rw [hf] at hx; cases hx
    | [_] => rw [hf] at hy; cases hy
    | [_, _] => rw [hf] at hz; cases hz
    | x' :: y' :: z' :: more =>
      rw [hf] at hx hy hz
      cases hx; cases hy; cases hz
      exact ⟨_, _, _, more, fields_iff.1 hf, ha, hb, hc⟩
  · rintro ⟨x, y, z, more, hs, h1, h2, h3⟩
    rw [fields_of_spells hs]
    exact ⟨x, rfl, _, h1, y, rfl, _, h2, z, rfl, _, h3, rfl⟩

theorem readVertices_iff (rd : Reader F) (n : Nat) (ls rest : List (List Char)) (vs : List (Vec F)) :
    readVertices rd n ls = .ok (vs, rest) ↔ ∃ vl, ls = vl ++ rest ∧ vl.length = n ∧ List.Forall₂ (VertexLine rd) vl vs := by
  induction n generalizing ls vs with
  | zero =>
    rw [readVertices]
    constructor
    · intro h; cases h; exact ⟨[], rfl, rfl, .nil⟩
    · rintro ⟨vl, rfl, h0, hf⟩
      have := List.eq_nil_of_length_eq_zero h0
      subst this; cases hf; rfl
  | succ n ih =>
    rw [readVertices]
    constructor
    · intro h
      obtain ⟨⟨l, ls1⟩, h1, h⟩ := bind_eq_ok.1 h
      dsimp only at h
      obtain ⟨v, hv, h⟩ := bind_eq_ok.1 h
      obtain ⟨⟨vs1, ls2⟩, h2, h⟩ := bind_eq_ok.1 h
      cases h
      cases ls with
      | nil => cases h1
      | cons l0 ls0 =>
        cases h1
        obtain ⟨vl, rfl, rfl, hf⟩ := (ih _ _).1 h2
        exact ⟨l0 :: vl, rfl, rfl, .cons ((readVertex_iff _ _ _).1 hv) hf⟩
    · rintro ⟨vl, rfl, h0, hf⟩
      cases hf with
      | nil => cases h0
      | @cons l0 v vl vs h1 h2 =>
        rw [List.cons_append, readLine, ok_bind]
        dsimp only
        rw [(readVertex_iff _ _ _).2 h1, ok_bind, (ih (vl ++ rest) vs).2 ⟨vl, rfl, by simpa using h0, h2⟩, ok_bind]
        rfl

theorem readFace_iff (l : List Char) (ts : List (Int × Int × Int)) :
    readFace (trimSpace l) = .ok ts ↔ FaceLine l ts := by
  unfold readFace FaceLine
  simp only [fields_trimSpace]
  have tri : ∀ (fs : List (List Char)) t, readTriangle fs = .ok t ↔
      ∃ i j k, atoiField fs 1 = .ok i ∧ atoiField fs 2 = .ok j ∧ atoiField fs 3 = .ok k ∧ t = (i, j, k) := by
    intro fs t
    unfold readTriangle
    simp only [bind_eq_ok]
    constructor
    · rintro ⟨i, hi, j, hj, k, hk, h⟩; cases h; exact ⟨i, j, k, hi, hj, hk, rfl⟩
    · rintro ⟨i, j, k, hi, hj, hk, rfl⟩; exact ⟨i, hi, j, hj, k, hk, rfl⟩
  have oth : ∀ (fs : List (List Char)) t, readOther fs = .ok t ↔
      ∃ i j k, atoiField fs 3 = .ok i ∧ atoiField fs 4 = .ok j ∧ atoiField fs 1 = .ok k ∧ t = (i, j, k) := by
    intro fs t
    unfold readOther
    simp only [bind_eq_ok]
    constructor
    · rintro ⟨i, hi, j, hj, k, hk, h⟩; cases h; exact ⟨i, j, k, hi, hj, hk, rfl⟩
    · rintro ⟨i, j, k, hi, hj, hk, rfl⟩; exact ⟨i, hi, j, hj, k, hk, rfl⟩
  constructor
  · intro h
    obtain ⟨nV, hn, h⟩ := bind_eq_ok.1 h
    obtain ⟨w0, hw0, hnum⟩ := atoiField_ok.1 hn
    split at h
    · rename_i h3
      subst h3
      obtain ⟨t, ht, h⟩ := bind_eq_ok.1 h
      cases h
      obtain ⟨i, j, k, hi, hj, hk, rfl⟩ := (tri _ _).1 ht
      obtain ⟨w1, hw1, h1⟩ := atoiField_ok.1 hi
      obtain ⟨w2, hw2, h2⟩ := atoiField_ok.1 hj
      obtain ⟨w3, hw3, h3⟩ := atoiField_ok.1 hk
      match hf : fields l with
      | [] => rw [hf] at hw0; cases hw0
      | [_] => rw [hf] at hw1; cases hw1
      | [_, _] => rw [hf] at hw2; cases hw2
      | [_, _, _] => rw [hf] at hw3; cases hw3
      | a :: b :: c :: d :: more =>
        rw [hf] at hw0 hw1 hw2 hw3
        cases hw0; cases hw1; cases hw2; cases hw3
        exact .inl ⟨_, _, _, _, more, i, j, k, fields_iff.1 hf, hnum, h1, h2, h3, rfl⟩
    · split at h
      · rename_i h4
        subst h4
        obtain ⟨t, ht, h⟩ := bind_eq_ok.1 h
        obtain ⟨t', ht', h⟩ := bind_eq_ok.1 h
        cases h
        obtain ⟨i, j, k, hi, hj, hk, rfl⟩ := (tri _ _).1 ht
        obtain ⟨k', m, i', hk', hm, hi', rfl⟩ := (oth _ _).1 ht'
        rw [hk] at hk'; cases hk'
        rw [hi] at hi'; cases hi'
        obtain ⟨w1, hw1, h1⟩ := atoiField_ok.1 hi
        obtain ⟨w2, hw2, h2⟩ := atoiField_ok.1 hj
        obtain ⟨w3, hw3, h3⟩ := atoiField_ok.1 hk
        obtain ⟨w4, hw4, h4⟩ := atoiField_ok.1 hm
        match hf : fields l with
        | [] => rw [hf] at hw0; cases hw0
        | [_] => rw [hf] at hw1; cases hw1
        | [_, _] => rw [hf] at hw2; cases hw2
        | [_, _, _] => rw [hf] at hw3; cases hw3
        | [_, _, _, _] => rw [hf] at hw4; cases hw4
        | a :: b :: c :: d :: e :: more =>
          rw [hf] at hw0 hw1 hw2 hw3 hw4
          cases hw0; cases hw1; cases hw2; cases hw3; cases hw4
          exact .inr ⟨_, _, _, _, _, more, i, j, k, m, fields_iff.1 hf, hnum, h1, h2, h3, h4, rfl⟩
      · cases h
  · rintro (⟨n, a, b, c, more, i, j, k, hs, hn, h1, h2, h3, rfl⟩ | ⟨n, a, b, c, d, more, i, j, k, m, hs, hn, h1, h2, h3, h4, rfl⟩)
    · rw [fields_of_spells hs, atoiField_ok.2 ⟨n, rfl, hn⟩, ok_bind, if_pos rfl,
        (tri _ (i, j, k)).2 ⟨i, j, k, atoiField_ok.2 ⟨a, rfl, h1⟩, atoiField_ok.2 ⟨b, rfl, h2⟩, atoiField_ok.2 ⟨c, rfl, h3⟩, rfl⟩]
      rfl
    · rw [fields_of_spells hs, atoiField_ok.2 ⟨n, rfl, hn⟩, ok_bind, if_neg (by decide), if_pos rfl,
        (tri _ (i, j, k)).2 ⟨i, j, k, atoiField_ok.2 ⟨a, rfl, h1⟩, atoiField_ok.2 ⟨b, rfl, h2⟩, atoiField_ok.2 ⟨c, rfl, h3⟩, rfl⟩,
        ok_bind,
        (oth _ (k, m, i)).2 ⟨k, m, i, atoiField_ok.2 ⟨c, rfl, h3⟩, atoiField_ok.2 ⟨d, rfl, h4⟩, atoiField_ok.2 ⟨a, rfl, h1⟩, rfl⟩]
      rfl

theorem readFaces_iff (n : Nat) (ls rest : List (List Char)) (fs : List (Int × Int × Int)) :
    readFaces n ls = .ok (fs, rest) ↔
      ∃ fl ts, ls = fl ++ rest ∧ fl.length = n ∧ List.Forall₂ FaceLine fl ts ∧ fs = ts.flatten := by
  induction n generalizing ls fs with
  | zero =>
    rw [readFaces]
    constructor
    · intro h; cases h; exact ⟨[], [], rfl, rfl, .nil, rfl⟩
    · rintro ⟨vl, ts, rfl, h0, hf, rfl⟩
      have := List.eq_nil_of_length_eq_zero h0
      subst this; cases hf; rfl
  | succ n ih =>
    rw [readFaces]
    constructor
    · intro h
      obtain ⟨⟨l, ls1⟩, h1, h⟩ := bind_eq_ok.1 h
      dsimp only at h
      obtain ⟨v, hv, h⟩ := bind_eq_ok.1 h
      obtain ⟨⟨vs1, ls2⟩, h2, h⟩ := bind_eq_ok.1 h
      cases h
      cases ls with
      | nil => cases h1
      | cons l0 ls0 =>
        cases h1
        obtain ⟨vl, ts, rfl, rfl, hf, rfl⟩ := (ih _ _).1 h2
        exact ⟨l0 :: vl, v :: ts, rfl, rfl, .cons ((readFace_iff _ _).1 hv) hf, rfl⟩
    · rintro ⟨vl, ts, rfl, h0, hf, rfl⟩
      cases hf with
      | nil => cases h0
      | @cons l0 v vl ts h1 h2 =>
        rw [List.cons_append, readLine, ok_bind]
        dsimp only
        rw [(readFace_iff _ _).2 h1, ok_bind, (ih (vl ++ rest) ts.flatten).2 ⟨vl, ts, rfl, by simpa using h0, h2, rfl⟩, ok_bind]
        rfl

end BR.PlyFile
