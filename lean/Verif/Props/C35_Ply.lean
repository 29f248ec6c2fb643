import Verif.Lemmas.PlyFile
import Mathlib.Tactic.NormNum

/-! C35: parsing PLY files. The value a decimal numeral has for `strconv.ParseFloat` is a parameter. -/

namespace BR

open Text PlyFile

variable {F : Type}

/-- A file is accepted if and only if it has the two magic lines, header lines that mean something, the end of the header
and as many vertex and face lines as declared; the result is exactly what these lines say, quads being split in two. Every
line that is read must be ended by a line feed (`tail` is what comes after the last one). -/
theorem C35_exact (rd : Reader F) (lines : List (List Char)) (tail : List Char) (hl : ∀ l ∈ lines, '\n' ∉ l)
    (ht : '\n' ∉ tail) (vs : List (Vec F)) (fs : List (Int × Int × Int)) :
    PlyFile.parse rd (unlines lines ++ tail) = some (vs, fs) ↔
      ∃ magic format header stop vertexLines faceLines rest items triangles,
        lines = magic :: format :: header ++ stop :: vertexLines ++ faceLines ++ rest ∧
        Trimmed magic "ply".toList ∧ Trimmed format "format ascii 1.0".toList ∧
        List.Forall₂ (fun l it => ∃ t, Trimmed l t ∧ HeaderMeans t it) header items ∧
        Trimmed stop "end_header".toList ∧
        numVertices 0 items = vertexLines.length ∧ List.Forall₂ (VertexLine rd) vertexLines vs ∧
        numFaces 0 items = faceLines.length ∧ List.Forall₂ FaceLine faceLines triangles ∧ fs = triangles.flatten := by
  have hmean : ∀ (l : List Char) (it : HeaderItem), (∃ t, Trimmed l t ∧ HeaderMeans t it) ↔ HeaderMeans (trimSpace l) it := by
    intro l it
    constructor
    · rintro ⟨t, h, hm⟩; rw [← trimSpace_iff] at h; subst h; exact hm
    · intro h; exact ⟨_, (trimSpace_iff _ _).1 rfl, h⟩
  simp only [hmean]
  have hmake : ∀ (n : Int) k, PlyFile.make n = .ok k ↔ n = k := by
    intro n k
    unfold PlyFile.make
    split
    · constructor
      · intro h; cases h
      · intro h; omega
    · constructor
      · intro h; cases h; omega
      · rintro rfl; simp
  have hbody : PlyFile.parse rd (unlines lines ++ tail) = some (vs, fs) ↔
      parseBody rd (unlines lines ++ tail) = .ok (vs, fs) := by
    unfold PlyFile.parse
    split
    · rename_i r h; simp [h]
    · rename_i r h; simp [h]
  rw [hbody]
  unfold parseBody
  rw [fullLines_unlines _ hl _ ht]
  constructor
  · intro h
    obtain ⟨⟨magic, ls⟩, h1, h⟩ := bind_eq_ok.1 h
    dsimp only at h
    split at h
    · cases h
    rename_i hm
    obtain ⟨⟨format, ls2⟩, h2, h⟩ := bind_eq_ok.1 h
    dsimp only at h
    split at h
    · cases h
    rename_i hfm
    obtain ⟨⟨numV, numF, ls3⟩, h3, h⟩ := bind_eq_ok.1 h
    dsimp only at h
    obtain ⟨nv, hnv, h⟩ := bind_eq_ok.1 h
    obtain ⟨⟨vs', ls4⟩, h4, h⟩ := bind_eq_ok.1 h
    dsimp only at h
    obtain ⟨nf, hnf, h⟩ := bind_eq_ok.1 h
    obtain ⟨⟨fs', ls5⟩, h5, h⟩ := bind_eq_ok.1 h
    cases h
    cases lines with
    | nil => cases h1
    | cons a lines =>
      cases h1
      cases ls with
      | nil => cases h2
      | cons b ls =>
        cases h2
        obtain ⟨hdr, items, lend, rfl, he, hf, rfl, rfl⟩ := (readHeader_iff _ _ _ _ _ _).1 h3
        obtain ⟨vl, rfl, rfl, hvl⟩ := (readVertices_iff _ _ _ _ _).1 h4
        obtain ⟨fl, ts, rfl, rfl, hfl, rfl⟩ := (readFaces_iff _ _ _ _).1 h5
        rw [hmake] at hnv hnf
        exact ⟨a, b, hdr, lend, vl, fl, ls5, items, ts, by simp, (trimSpace_iff _ _).1 (not_not.1 hm),
          (trimSpace_iff _ _).1 (not_not.1 hfm), hf, (trimSpace_iff _ _).1 he, hnv, hvl, hnf, hfl, rfl⟩
  · rintro ⟨a, b, hdr, lend, vl, fl, rest, items, ts, rfl, h1, h2, hf, he, hnv, hvl, hnf, hfl, rfl⟩
    rw [← trimSpace_iff] at h1 h2 he
    have e : a :: b :: hdr ++ lend :: vl ++ fl ++ rest = a :: b :: (hdr ++ lend :: (vl ++ (fl ++ rest))) := by simp
    rw [e, readLine, ok_bind]
    dsimp only
    rw [if_neg (not_not.2 h1), readLine, ok_bind]
    dsimp only
    rw [if_neg (not_not.2 h2), (readHeader_iff _ 0 0 _ _ (vl ++ (fl ++ rest))).2 ⟨hdr, items, lend, rfl, he, hf, rfl, rfl⟩, ok_bind]
    dsimp only
    rw [(hmake _ _).2 hnv, ok_bind, (readVertices_iff rd _ _ (fl ++ rest) vs).2 ⟨vl, rfl, rfl, hvl⟩, ok_bind]
    dsimp only
    rw [(hmake _ _).2 hnf, ok_bind, (readFaces_iff _ _ rest ts.flatten).2 ⟨fl, ts, rfl, rfl, hfl, rfl⟩, ok_bind]
    rfl

/-- Every text has the form of `C35_exact`. -/
theorem C35_lines (text : List Char) : ∃ ls tail, (∀ l ∈ ls, '\n' ∉ l) ∧ '\n' ∉ tail ∧ text = unlines ls ++ tail :=
  exists_unlines text

/-- A reader of natural numbers. -/
def rdNat : Reader ℕ := ⟨digitsValue, digitsValue⟩

deriving instance DecidableEq for Vec

/-- A square, with a comment, an ignored property and Windows line ends. -/
example : PlyFile.parse rdNat ("ply\r\nformat ascii 1.0\ncomment a square\nelement vertex 4\nproperty float x\n" ++
    "element face 2\nend_header\n0 0 0\n1 0 0 255 255\n 1 1 0\n0 1 0\n4 0 1 2 3\n3 0 1 2\nmore").toList =
    some ([⟨0, 0, 0⟩, ⟨1, 0, 0⟩, ⟨1, 1, 0⟩, ⟨0, 1, 0⟩], [(0, 1, 2), (2, 3, 0), (0, 1, 2)]) := by
  decide +kernel

/-- The file of a single point with a line feed at the end, and without. -/
theorem C35_violated_newline (rd : Reader F) (a : F) (h : rd.read64 "0".toList = some a) :
    PlyFile.parse rd "ply\nformat ascii 1.0\nelement vertex 1\nend_header\n0 0 0\n".toList = some ([⟨a, a, a⟩], []) ∧
      PlyFile.parse rd "ply\nformat ascii 1.0\nelement vertex 1\nend_header\n0 0 0".toList = none := by
  have hv : VertexLine rd "0 0 0".toList ⟨a, a, a⟩ :=
    ⟨"0".toList, "0".toList, "0".toList, [], fields_iff.1 (by decide), h, h, h⟩
  have hn : Number "1".toList 1 := (number_iff _ _).1 (by decide)
  constructor
  · refine (C35_exact rd ["ply".toList, "format ascii 1.0".toList, "element vertex 1".toList, "end_header".toList,
      "0 0 0".toList] [] (by decide) (by decide) [⟨a, a, a⟩] []).2 ?_
    exact ⟨"ply".toList, "format ascii 1.0".toList, ["element vertex 1".toList], "end_header".toList, ["0 0 0".toList], [], [],
      [.vertices 1], [], by decide, (trimSpace_iff _ _).1 (by decide), (trimSpace_iff _ _).1 (by decide),
      .cons ⟨"element vertex 1".toList, (trimSpace_iff _ _).1 (by decide), "1".toList, by decide, hn⟩ .nil,
      (trimSpace_iff _ _).1 (by decide), rfl, .cons hv .nil, rfl, .nil, rfl⟩
  · rfl

/-- A header that declares the faces before the vertices, with the data in that order, as the format has it: an error. -/
theorem C35_violated_order :
    PlyFile.parse rdNat ("ply\nformat ascii 1.0\nelement face 1\nelement vertex 3\nend_header\n" ++
      "3 0 1 2\n0 0 0\n1 0 0\n0 1 0\n").toList = none ∧
    PlyFile.parse rdNat ("ply\nformat ascii 1.0\nelement vertex 3\nelement face 1\nend_header\n" ++
      "0 0 0\n1 0 0\n0 1 0\n3 0 1 2\n").toList = some ([⟨0, 0, 0⟩, ⟨1, 0, 0⟩, ⟨0, 1, 0⟩], [(0, 1, 2)]) := by
  decide +kernel

end BR
