import Verif.Lemmas.Mesh

/-! C33: polygons are split correctly and missing vertices are rejected. For every arithmetic. -/

namespace BR

set_option linter.unusedSectionVars false

/-- The directed edges of a triangle. -/
def triEdges {α : Type} (t : α × α × α) : List (α × α) := [(t.1, t.2.1), (t.2.1, t.2.2), (t.2.2, t.1)]

/-- The directed edges of a quadrilateral. -/
def quadEdges {α : Type} (a b c d : α) : List (α × α) := [(a, b), (b, c), (c, d), (d, a)]

/-- `t1` and `t2` are a correct split of the quadrilateral `a b c d`: together they have the four
edges of the quadrilateral in its direction, plus one diagonal, once in each direction. (So they use
only the four corners, share a diagonal and have the orientation of the quadrilateral.) -/
def IsSplit {α : Type} (a b c d : α) (t1 t2 : α × α × α) : Prop :=
  ∃ p q, ((p, q) = (a, c) ∨ (p, q) = (b, d)) ∧
    (triEdges t1 ++ triEdges t2).Perm (quadEdges a b c d ++ [(p, q), (q, p)]) ∧
    (p, q) ∈ triEdges t1 ++ triEdges t2 ∧
    (((p, q) ∈ triEdges t1 ∧ (q, p) ∈ triEdges t2) ∨ ((q, p) ∈ triEdges t1 ∧ (p, q) ∈ triEdges t2))

/-- Loaded quadrilaterals are split correctly; triangles are kept. -/
theorem C33_load (a b c d : Int) :
    polySplit [a, b, c] = .ok [(a, b, c)] ∧
    ∃ t1 t2, polySplit [a, b, c, d] = .ok [t1, t2] ∧ IsSplit a b c d t1 t2 := by
  refine ⟨rfl, _, _, rfl, a, c, .inl rfl, ?_, by simp [triEdges], .inr ⟨by simp [triEdges], by simp [triEdges]⟩⟩
  simp only [triEdges, quadEdges, List.cons_append, List.nil_append]
  refine List.Perm.cons _ (List.Perm.cons _ ?_)
  refine (List.Perm.swap _ _ _).trans (List.Perm.cons _ ?_)
  refine (List.Perm.swap _ _ _).trans (List.Perm.cons _ ?_)
  exact List.Perm.swap _ _ _

/-- Polygons with fewer than 3 or more than 4 corners are rejected (panic). -/
theorem C33_load_other (f : List Int) (h3 : f.length ≠ 3) (h4 : f.length ≠ 4) :
    ∃ e, polySplit f = .error e := by
  match f with
  | [] | [_] | [_, _] => exact ⟨_, rfl⟩
  | [_, _, _] => simp at h3
  | [_, _, _, _] => simp at h4
  | _ :: _ :: _ :: _ :: _ :: _ => exact ⟨_, rfl⟩

/-- The face list of `Quadrilateral` splits the corners 0, 1, 2, 3 correctly. -/
theorem C33_quadrilateral : ∃ t1 t2, quadFaces = [t1, t2] ∧ IsSplit (0 : Int) 1 2 3 t1 t2 := by
  refine ⟨_, _, rfl, 1, 3, .inr rfl, ?_, ?_, ?_⟩ <;> decide

variable {F M : Type} [Add F] [Sub F] [Mul F] [Div F] [Neg F] [GoFloat F]

private theorem mapM_error {α β : Type} (g : α → GoM β) (l : List α) (x : α) (hx : x ∈ l)
    (he : ∃ e, g x = .error e) : ∃ e, l.mapM g = .error e := by
  induction l with
  | nil => cases hx
  | cons a l ih =>
    rw [List.mapM_cons]
    cases ha : g a with
    | error e => exact ⟨e, rfl⟩
    | ok b =>
      rcases List.mem_cons.1 hx with rfl | hx
      · obtain ⟨e, he⟩ := he; rw [he] at ha; cases ha
      · obtain ⟨e, he⟩ := ih hx
        exact ⟨e, by rw [ok_bind, he]; rfl⟩

private theorem mkVertices_length (vertices : List (Vec F)) (UV : Option (List (F × F)))
    (vs : List (Vertex F)) (h : mkVertices vertices UV = .ok vs) : vs.length = vertices.length := by
  have key : ∀ {α β : Type} (g : α → GoM β) (l : List α) (r : List β), l.mapM g = .ok r →
      r.length = l.length := by
    intro α β g l
    induction l with
    | nil => intro r h; cases h; rfl
    | cons a l ih =>
      intro r h
      rw [List.mapM_cons] at h
      obtain ⟨b, -, h⟩ := bind_eq_ok.1 h
      obtain ⟨bs, hb, h⟩ := bind_eq_ok.1 h
      cases h
      simp [ih bs hb]
  cases UV with
  | none => cases h; simp
  | some uv => rw [mkVertices] at h; simpa using key _ _ _ h

/-- A mesh with a face that refers to a vertex that does not exist is rejected (panic), whatever the
other faces and texture coordinates. -/
theorem C33_missing_vertex (S : Sorter (Obj F M)) (m : Option M) (vertices : List (Vec F))
    (faceIdx : List (Int × Int × Int)) (UV : Option (List (F × F))) (f : Int × Int × Int)
    (hf : f ∈ faceIdx) (i : Int) (hi : i = f.1 ∨ i = f.2.1 ∨ i = f.2.2)
    (hbad : i < 0 ∨ (vertices.length : Int) ≤ i) :
    ∃ e, meshWithUV S m vertices faceIdx UV = .error e := by
  rw [meshWithUV]
  cases hv : mkVertices vertices UV with
  | error e => exact ⟨e, rfl⟩
  | ok vs =>
    have hl := mkVertices_length _ _ _ hv
    have hr : ∃ e, vertexRef vs.length i = .error e := ⟨_, if_neg (by rw [hl]; omega)⟩
    have ht : ∃ e, triRef vs.length f = .error e := by
      obtain ⟨e, hr⟩ := hr
      rw [triRef]
      rcases hi with rfl | rfl | rfl
      · exact ⟨e, by rw [hr]; rfl⟩
      · cases vertexRef vs.length f.1 with
        | error e' => exact ⟨e', rfl⟩
        | ok a => exact ⟨e, by rw [ok_bind, hr]; rfl⟩
      · cases vertexRef vs.length f.1 with
        | error e' => exact ⟨e', rfl⟩
        | ok a =>
          cases vertexRef vs.length f.2.1 with
          | error e' => exact ⟨e', rfl⟩
          | ok b => exact ⟨e, by rw [ok_bind, ok_bind, hr]; rfl⟩
    obtain ⟨e, he⟩ := mapM_error (triRef vs.length) faceIdx f hf ht
    exact ⟨e, by rw [ok_bind, he]; rfl⟩

/-- The same for loaded polygons. -/
theorem C33_load_missing_vertex (S : Sorter (Obj F M)) (m : Option M) (vertices : List (Vec F))
    (faces : List (List Int)) (f : List Int) (hf : f ∈ faces) (i : Int) (hi : i ∈ f)
    (hbad : i < 0 ∨ (vertices.length : Int) ≤ i) :
    ∃ e, plyObj S m vertices faces = .error e := by
  rw [plyObj]
  cases hs : faces.mapM polySplit with
  | error e => exact ⟨e, rfl⟩
  | ok f2 =>
    have key : ∀ (faces : List (List Int)) (f2 : List (List (Int × Int × Int))), faces.mapM polySplit = .ok f2 →
        f ∈ faces → ∃ ts ∈ f2, polySplit f = .ok ts := by
      intro faces
      induction faces with
      | nil => intro f2 _ h; cases h
      | cons g gs ih =>
        intro f2 h hm
        rw [List.mapM_cons] at h
        obtain ⟨t, ht, h⟩ := bind_eq_ok.1 h
        obtain ⟨ts, hts, h⟩ := bind_eq_ok.1 h
        cases h
        rcases List.mem_cons.1 hm with rfl | hm
        · exact ⟨t, by simp, ht⟩
        · obtain ⟨ts', h1, h2⟩ := ih ts hts hm
          exact ⟨ts', by simp [h1], h2⟩
    obtain ⟨ts, hts, hsp⟩ := key faces f2 hs hf
    have : ∃ t ∈ ts, i = t.1 ∨ i = t.2.1 ∨ i = t.2.2 := by
      match f, hsp with
      | [a, b, c], hsp =>
        cases hsp
        simp only [List.mem_cons, List.not_mem_nil, or_false] at hi
        exact ⟨(a, b, c), by simp, hi⟩
      | [a, b, c, d], hsp =>
        cases hsp
        simp only [List.mem_cons, List.not_mem_nil, or_false] at hi
        rcases hi with h | h | h | h
        · exact ⟨(a, b, c), by simp, .inl h⟩
        · exact ⟨(a, b, c), by simp, .inr (.inl h)⟩
        · exact ⟨(a, b, c), by simp, .inr (.inr h)⟩
        · exact ⟨(c, d, a), by simp, .inr (.inl h)⟩
      | [], hsp => cases hsp
      | [_], hsp => cases hsp
      | [_, _], hsp => cases hsp
      | _ :: _ :: _ :: _ :: _ :: _, hsp => cases hsp
    obtain ⟨t, ht, hi⟩ := this
    exact C33_missing_vertex S m vertices f2.flatten none t (List.mem_flatten.2 ⟨ts, hts, ht⟩) i hi hbad

/-- The triangles of `Quadrilateral(a, b, c, d)` have the given corners as their vertices. -/
theorem C33_quadrilateral_corners (S : Sorter (Obj F M)) (m : Option M) (a b c d : Vec F) :
    ∃ va vb vc vd : Vertex F, va.pos = a ∧ vb.pos = b ∧ vc.pos = c ∧ vd.pos = d ∧
      quadrilateral S m a b c d =
        (makeBoundingBox (M := M) [.face va vb vd, .face vc vd vb] >>= fun bb =>
          .ok (.withMaterial m (.tree (.leaf bb.toF [.face va vb vd, .face vc vd vb])))) := by
  obtain ⟨na, nb, nc, nd, e⟩ := quad_spec S m a b c d
  exact ⟨⟨a, na, lit 0, lit 0⟩, ⟨b, nb, lit 1, lit 0⟩, ⟨c, nc, lit 1, lit 1⟩, ⟨d, nd, lit 0, lit 1⟩,
    rfl, rfl, rfl, rfl, e⟩

/-- Four corners in a plane. -/
example : ∃ t1 t2, polySplit [4, 5, 6, 7] = .ok [t1, t2] := ⟨_, _, rfl⟩

end BR
