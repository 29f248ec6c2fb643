import Verif.Lemmas.Mesh
import Verif.Num.Real
import Mathlib.Data.List.Range
import Mathlib.Data.List.Nodup
import Mathlib.Tactic.Ring
import Mathlib.Tactic.FieldSimp

/-! C32: parametric meshes, for every resolution and in every arithmetic. -/

namespace BR

set_option linter.unusedSectionVars false

/-! ## Filling an array -/

section writes

variable {α : Type}

private def wstep (arr : List (Option α)) (w : Nat × α) : GoM (List (Option α)) :=
  if w.1 < arr.length then .ok (arr.set w.1 (some w.2)) else .error .indexOutOfRange

private theorem fold_writes (ws : List (Nat × α)) (arr : List (Option α))
    (hb : ∀ w ∈ ws, w.1 < arr.length) :
    ∃ arr', ws.foldlM wstep arr = .ok arr' ∧ arr'.length = arr.length ∧
      (∀ i, i ∉ ws.map Prod.fst → arr'[i]? = arr[i]?) ∧
      ((ws.map Prod.fst).Nodup → ∀ w ∈ ws, arr'[w.1]? = some (some w.2)) := by
  induction ws generalizing arr with
  | nil => exact ⟨arr, rfl, rfl, fun _ _ => rfl, fun _ _ h => by cases h⟩
  | cons w ws ih =>
    have hw := hb w (by simp)
    obtain ⟨arr', e, hl, h1, h2⟩ := ih (arr.set w.1 (some w.2)) (fun v hv => by
      rw [List.length_set]; exact hb v (by simp [hv]))
    rw [List.length_set] at hl
    refine ⟨arr', ?_, hl, ?_, ?_⟩
    · rw [List.foldlM_cons, wstep, if_pos hw, ok_bind]; exact e
    · intro i hi
      simp only [List.map_cons, List.mem_cons, not_or] at hi
      rw [h1 i hi.2, List.getElem?_set_ne (Ne.symm hi.1)]
    · intro hnd v hv
      rw [List.map_cons, List.nodup_cons] at hnd
      rcases List.mem_cons.1 hv with rfl | hv
      · rw [h1 _ hnd.1, List.getElem?_set_self hw]
      · exact h2 hnd.2 v hv

private theorem applyWrites_spec (n : Nat) (ws : List (Nat × α)) (hb : ∀ w ∈ ws, w.1 < n)
    (hnd : (ws.map Prod.fst).Nodup) (hall : ∀ i < n, i ∈ ws.map Prod.fst) :
    ∃ l, (applyWrites n ws >>= allAssigned) = .ok l ∧ l.length = n ∧
      ∀ w ∈ ws, l[w.1]? = some w.2 := by
  obtain ⟨arr, e, hl, -, h2⟩ := fold_writes ws (List.replicate n none) (by simpa using hb)
  rw [List.length_replicate] at hl
  have hsome : ∀ i, i < n → ∃ a, arr[i]? = some (some a) := by
    intro i hi
    obtain ⟨w, hw, rfl⟩ := List.mem_map.1 (hall i hi)
    exact ⟨w.2, h2 hnd w hw⟩
  have key : ∀ (arr : List (Option α)), (∀ i, i < arr.length → ∃ a, arr[i]? = some (some a)) →
      ∃ l, allAssigned arr = .ok l ∧ arr = l.map some := by
    intro arr
    induction arr with
    | nil => intro _; exact ⟨[], rfl, rfl⟩
    | cons o arr ih =>
      intro h
      obtain ⟨a, ha⟩ := h 0 (by simp)
      simp only [List.getElem?_cons_zero, Option.some.injEq] at ha
      subst ha
      obtain ⟨l, e, h'⟩ := ih fun i hi => by
        have := h (i + 1) (by simpa using hi)
        simpa using this
      refine ⟨a :: l, ?_, by rw [h']; rfl⟩
      rw [allAssigned, List.mapM_cons]
      rw [allAssigned] at e
      rw [e]; rfl
  obtain ⟨l, e', hmap⟩ := key arr (by rw [hl]; exact hsome)
  refine ⟨l, ?_, ?_, ?_⟩
  · have : applyWrites n ws = .ok arr := e
    rw [this, ok_bind, e']
  · rw [← hl, hmap, List.length_map]
  · intro w hw
    have := h2 hnd w hw
    rw [hmap, List.getElem?_map] at this
    cases hl : l[w.1]? with
    | none => rw [hl] at this; cases this
    | some a => rw [hl] at this; simpa using this

end writes

/-! ## The grid -/

private theorem mem_cells (numU numV iu iv : Nat) :
    (iu, iv) ∈ paramCells numU numV ↔ iu < numU ∧ iv < numV := by
  simp [paramCells]

private theorem cells_nodup (numU numV : Nat) : (paramCells numU numV).Nodup := by
  rw [paramCells, List.nodup_flatMap]
  refine ⟨fun iu _ => List.Nodup.map (fun a b h => (Prod.mk.inj h).2) List.nodup_range, ?_⟩
  refine List.Pairwise.imp ?_ (List.nodup_range (n := numU))
  intro a b hab c hc hd
  obtain ⟨x, _, rfl⟩ := List.mem_map.1 hc
  obtain ⟨y, _, h⟩ := List.mem_map.1 hd
  exact hab (Prod.mk.inj h).1.symm

private theorem index_inj {n a b c d : Nat} (hb : b < n) (hd : d < n) (h : a * n + b = c * n + d) :
    a = c ∧ b = d := by
  have hn : 0 < n := by omega
  have h1 : (a * n + b) / n = a := by
    rw [Nat.add_comm, Nat.add_mul_div_right _ _ hn, Nat.div_eq_of_lt hb, Nat.zero_add]
  have h2 : (c * n + d) / n = c := by
    rw [Nat.add_comm, Nat.add_mul_div_right _ _ hn, Nat.div_eq_of_lt hd, Nat.zero_add]
  have : a = c := by rw [← h1, h, h2]
  subst this
  exact ⟨rfl, by omega⟩

private theorem index_lt {m n a b : Nat} (ha : a < m) (hb : b < n) : a * n + b < m * n := by
  calc a * n + b < a * n + n := by omega
    _ = (a + 1) * n := by ring
    _ ≤ m * n := Nat.mul_le_mul_right _ ha

/-- The cells of the grid that have faces. -/
private def faceCells (numU numV : Nat) : List (Nat × Nat) :=
  (paramCells numU numV).filter fun c => c.1 < numU - 1 ∧ c.2 < numV - 1

private theorem faceWrites_map (numU numV : Nat) :
    (paramFaceWrites numU numV).map Prod.fst
      = (faceCells numU numV).flatMap fun c =>
          [2 * (c.1 * (numV - 1) + c.2) + 0, 2 * (c.1 * (numV - 1) + c.2) + 1] := by
  rw [paramFaceWrites, faceCells]
  induction paramCells numU numV with
  | nil => rfl
  | cons c l ih =>
    rw [List.flatMap_cons, List.map_append, ih]
    by_cases hc : c.1 < numU - 1 ∧ c.2 < numV - 1
    · rw [List.filter_cons_of_pos (by simpa using hc), List.flatMap_cons]
      simp [hc]
    · rw [List.filter_cons_of_neg (by simpa using hc)]
      simp [hc]

private theorem mem_faceCells (numU numV iu iv : Nat) :
    (iu, iv) ∈ faceCells numU numV ↔ iu < numU - 1 ∧ iv < numV - 1 := by
  rw [faceCells, List.mem_filter, mem_cells]
  simp only [decide_eq_true_eq]
  omega

private theorem faceWrites_nodup (numU numV : Nat) : ((paramFaceWrites numU numV).map Prod.fst).Nodup := by
  rw [faceWrites_map, List.nodup_flatMap]
  refine ⟨fun c _ => by simp, ?_⟩
  have hnd : (faceCells numU numV).Nodup := (cells_nodup numU numV).filter _
  refine List.Pairwise.imp_of_mem ?_ hnd
  rintro ⟨a, b⟩ ⟨c, d⟩ hc hd hne x hx hy
  rw [mem_faceCells] at hc hd
  simp only [List.mem_cons, List.not_mem_nil, or_false] at hx hy
  have : a * (numV - 1) + b = c * (numV - 1) + d := by omega
  obtain ⟨rfl, rfl⟩ := index_inj hc.2 hd.2 this
  exact hne rfl

private theorem faceWrites_lt (numU numV i : Nat) (h : i ∈ (paramFaceWrites numU numV).map Prod.fst) :
    i < 2 * (numU - 1) * (numV - 1) := by
  rw [faceWrites_map, List.mem_flatMap] at h
  obtain ⟨⟨a, b⟩, hc, hi⟩ := h
  rw [mem_faceCells] at hc
  have := index_lt hc.1 hc.2
  simp only [List.mem_cons, List.not_mem_nil, or_false] at hi
  rw [Nat.mul_assoc]
  omega

private theorem faceWrites_all (numU numV i : Nat) (h : i < 2 * (numU - 1) * (numV - 1)) :
    i ∈ (paramFaceWrites numU numV).map Prod.fst := by
  rw [faceWrites_map, List.mem_flatMap]
  have hV : 0 < numV - 1 := by
    rcases Nat.eq_zero_or_pos (numV - 1) with h0 | h0
    · rw [h0] at h; omega
    · exact h0
  refine ⟨(i / 2 / (numV - 1), i / 2 % (numV - 1)), ?_, ?_⟩
  · rw [mem_faceCells]
    refine ⟨?_, Nat.mod_lt _ hV⟩
    rw [Nat.div_lt_iff_lt_mul hV]
    rw [Nat.mul_assoc] at h
    omega
  · have := Nat.div_add_mod (i / 2) (numV - 1)
    rw [Nat.mul_comm] at this
    simp only [List.mem_cons, List.not_mem_nil, or_false, this]
    omega

/-- Every face of the mesh is defined exactly once: the indices assigned are the numbers
`0 … 2(numU-1)(numV-1)-1`, each once. -/
theorem C32_once (numU numV : Nat) :
    ((paramFaceWrites numU numV).map Prod.fst).Perm (List.range (2 * (numU - 1) * (numV - 1))) := by
  rw [List.perm_ext_iff_of_nodup (faceWrites_nodup numU numV) List.nodup_range]
  intro i
  rw [List.mem_range]
  exact ⟨faceWrites_lt numU numV i, faceWrites_all numU numV i⟩

/-- The face array: `2(numU-1)(numV-1)` faces, two for each cell of the grid. They are the triangles
`(iu,iv) (iu+1,iv) (iu+1,iv+1)` and `(iu,iv) (iu+1,iv+1) (iu,iv+1)`, so they share the diagonal from
`(iu,iv)` to `(iu+1,iv+1)` and go through it in opposite directions. -/
theorem C32_faces (numU numV : Nat) :
    ∃ fs, (applyWrites (2 * (numU - 1) * (numV - 1)) (paramFaceWrites numU numV) >>= allAssigned) = .ok fs ∧
      fs.length = 2 * (numU - 1) * (numV - 1) ∧
      (∀ iu iv, iu < numU - 1 → iv < numV - 1 →
        let a := iu * numV + iv
        let b := (iu + 1) * numV + iv
        let c := (iu + 1) * numV + (iv + 1)
        let d := iu * numV + (iv + 1)
        fs[2 * (iu * (numV - 1) + iv)]? = some (a, b, c) ∧
        fs[2 * (iu * (numV - 1) + iv) + 1]? = some (a, c, d)) ∧
      ∀ f ∈ fs, ∀ i ∈ f.corners, i < numU * numV := by
  obtain ⟨fs, e, hl, h⟩ := applyWrites_spec (2 * (numU - 1) * (numV - 1)) (paramFaceWrites numU numV)
    (fun w hw => faceWrites_lt _ _ _ (List.mem_map_of_mem hw)) (faceWrites_nodup _ _)
    (fun i hi => faceWrites_all _ _ i hi)
  have cell : ∀ iu iv, iu < numU - 1 → iv < numV - 1 →
      fs[2 * (iu * (numV - 1) + iv)]?
        = some (iu * numV + iv, (iu + 1) * numV + iv, (iu + 1) * numV + (iv + 1)) ∧
      fs[2 * (iu * (numV - 1) + iv) + 1]?
        = some (iu * numV + iv, (iu + 1) * numV + (iv + 1), iu * numV + (iv + 1)) := by
    intro iu iv hu hv
    have hm : ∀ w, w ∈ [(2 * (iu * (numV - 1) + iv) + 0,
         (paramIndex numV iu iv, paramIndex numV (iu + 1) iv, paramIndex numV (iu + 1) (iv + 1))),
       (2 * (iu * (numV - 1) + iv) + 1,
         (paramIndex numV iu iv, paramIndex numV (iu + 1) (iv + 1), paramIndex numV iu (iv + 1)))] →
        w ∈ paramFaceWrites numU numV := by
      intro w hw
      rw [paramFaceWrites, List.mem_flatMap]
      refine ⟨(iu, iv), (mem_cells ..).2 ⟨by omega, by omega⟩, ?_⟩
      simp only [if_pos (And.intro hu hv)]
      exact hw
    exact ⟨h _ (hm _ (List.mem_cons_self ..)), h _ (hm _ (List.mem_cons_of_mem _ (List.mem_cons_self ..)))⟩
  refine ⟨fs, e, hl, fun iu iv hu hv => cell iu iv hu hv, ?_⟩
  intro f hf
  obtain ⟨i, hi, rfl⟩ := List.getElem_of_mem hf
  have hV : 0 < numV - 1 := by
    rcases Nat.eq_zero_or_pos (numV - 1) with h0 | h0
    · rw [h0] at hl; omega
    · exact h0
  have hU : i / 2 / (numV - 1) < numU - 1 := by
    rw [Nat.div_lt_iff_lt_mul hV]
    rw [hl, Nat.mul_assoc] at hi
    omega
  have hVm : i / 2 % (numV - 1) < numV - 1 := Nat.mod_lt (i / 2) hV
  obtain ⟨c0, c1⟩ := cell _ _ hU hVm
  have hdm := Nat.div_add_mod (i / 2) (numV - 1)
  rw [Nat.mul_comm] at hdm
  rw [hdm] at c0 c1
  generalize i / 2 % (numV - 1) = r at *
  generalize i / 2 / (numV - 1) = q at *
  have i1 := index_lt (m := numU) (n := numV) (a := q) (b := r) (by omega) (by omega)
  have i2 := index_lt (m := numU) (n := numV) (a := q + 1) (b := r) (by omega) (by omega)
  have i3 := index_lt (m := numU) (n := numV) (a := q + 1) (b := r + 1) (by omega) (by omega)
  have i4 := index_lt (m := numU) (n := numV) (a := q) (b := r + 1) (by omega) (by omega)
  rcases Nat.mod_two_eq_zero_or_one i with hm | hm
  · have : 2 * (i / 2) = i := by omega
    rw [this, List.getElem?_eq_getElem hi, Option.some.injEq] at c0
    rw [c0]
    intro j hj
    simp only [Tri.corners, List.mem_cons, List.not_mem_nil, or_false] at hj
    rcases hj with rfl | rfl | rfl <;> assumption
  · have : 2 * (i / 2) + 1 = i := by omega
    rw [this, List.getElem?_eq_getElem hi, Option.some.injEq] at c1
    rw [c1]
    intro j hj
    simp only [Tri.corners, List.mem_cons, List.not_mem_nil, or_false] at hj
    rcases hj with rfl | rfl | rfl <;> assumption

variable {F M : Type} [Add F] [Sub F] [Mul F] [Div F] [Neg F] [GoFloat F]

/-- The vertex array: vertex `(iu, iv)` is at `f(iu/(numU-1), iv/(numV-1))` and has these values as
texture coordinates. -/
theorem C32_vertices (numU numV : Nat) (f : F → F → Vec F) :
    ∃ vs, (applyWrites (numU * numV) (paramVertexWrites numU numV f) >>= allAssigned) = .ok vs ∧
      vs.length = numU * numV ∧
      ∀ iu iv, iu < numU → iv < numV →
        let u : F := ofInt (iu : Int) / ofInt ((numU : Int) - 1)
        let v : F := ofInt (iv : Int) / ofInt ((numV : Int) - 1)
        vs[iu * numV + iv]? = some ⟨f u v, Vec.zero, u, v⟩ := by
  have hmap : (paramVertexWrites numU numV f).map Prod.fst
      = (paramCells numU numV).map fun c => c.1 * numV + c.2 := by
    rw [paramVertexWrites, List.map_map]; rfl
  obtain ⟨vs, e, hl, h⟩ := applyWrites_spec (numU * numV) (paramVertexWrites numU numV f) (by
      intro w hw
      have := List.mem_map_of_mem (f := Prod.fst) hw
      rw [hmap] at this
      obtain ⟨⟨a, b⟩, hc, e⟩ := List.mem_map.1 this
      rw [mem_cells] at hc
      rw [← e]
      exact index_lt hc.1 hc.2) (by
      rw [hmap]
      refine List.Nodup.map_on ?_ (cells_nodup numU numV)
      rintro ⟨a, b⟩ hc ⟨c, d⟩ hd e
      rw [mem_cells] at hc hd
      obtain ⟨rfl, rfl⟩ := index_inj hc.2 hd.2 e
      rfl) (by
      intro i hi
      rw [hmap]
      have hV : 0 < numV := by
        rcases Nat.eq_zero_or_pos numV with h0 | h0
        · rw [h0] at hi; omega
        · exact h0
      refine List.mem_map.2 ⟨(i / numV, i % numV), (mem_cells ..).2 ⟨?_, Nat.mod_lt _ hV⟩, ?_⟩
      · rwa [Nat.div_lt_iff_lt_mul hV]
      · have := Nat.div_add_mod i numV
        rw [Nat.mul_comm] at this
        exact this)
  refine ⟨vs, e, hl, fun iu iv hu hv => ?_⟩
  refine h (_, _) ?_
  rw [paramVertexWrites]
  exact List.mem_map.2 ⟨(iu, iv), (mem_cells ..).2 ⟨hu, hv⟩, rfl⟩

/-- The surface is the mesh of these vertices and faces. -/
theorem C32_parametric (S : Sorter (Obj F M)) (m : Option M) (numU numV : Nat) (hU : 2 ≤ numU)
    (hV : 2 ≤ numV) (f : F → F → Vec F) :
    ∃ vs fs,
      (applyWrites (numU * numV) (paramVertexWrites numU numV f) >>= allAssigned) = .ok vs ∧
      (applyWrites (2 * (numU - 1) * (numV - 1)) (paramFaceWrites numU numV) >>= allAssigned) = .ok fs ∧
      parametric S m numU numV f = meshObj S m vs fs := by
  obtain ⟨vs, e1, -⟩ := C32_vertices numU numV f
  obtain ⟨fs, e2, -⟩ := C32_faces numU numV
  refine ⟨vs, fs, e1, e2, ?_⟩
  obtain ⟨a1, h1, h1'⟩ := bind_eq_ok.1 e1
  obtain ⟨a2, h2, h2'⟩ := bind_eq_ok.1 e2
  rw [parametric, if_neg (by omega), h1, ok_bind, h1', ok_bind, h2, ok_bind, h2', ok_bind]

/-- Resolutions below 2 are rejected (panic). -/
theorem C32_small (S : Sorter (Obj F M)) (m : Option M) (numU numV : Nat) (h : numU < 2 ∨ numV < 2)
    (f : F → F → Vec F) : ∃ e, parametric S m numU numV f = .error e :=
  ⟨_, if_pos h⟩

/-- A 3 by 2 grid, as in the comment of the code: 6 vertices and 4 faces. -/
example : (paramFaceWrites 3 2).map Prod.snd = [(0, 2, 3), (0, 3, 1), (2, 4, 5), (2, 5, 3)] := by decide

end BR
