import Verif.Model.Wavefront
import Verif.Spec.Wavefront
import Verif.Lemmas.Text
import Verif.Lemmas.GoM

namespace BR.Wavefront

open Text

variable {F : Type}

theorem check_ok {α : Type} {o : Option α} {a : α} : check o = .ok a ↔ o = some a := by
  cases o <;> simp [check, errorf]

theorem fields_dropCR (l : List Char) : fields (dropCR l) = fields l := by
  unfold dropCR
  split
  · rename_i h
    obtain ⟨t, rfl⟩ : ∃ t, l = t ++ ['\r'] := by
      have := List.getLast?_eq_some_iff.1 h
      exact this
    simp [fields_append_space _ ['\r'] (by decide)]
  · rfl

theorem rawLines_of_isText {lines : List (List Char)} {text : List Char} (h : IsText lines text) : rawLines text = lines := by
  obtain ⟨h1, rfl | ⟨init, last, rfl, h0, rfl⟩⟩ := h
  · exact rawLines_unlines _ h1
  · exact rawLines_open _ (fun l hl => h1 l (by simp [hl])) _ (h1 last (by simp)) h0

theorem takeWhile_word (number more : List Char) (h : '/' ∉ number) (hm : ∀ c ∈ more.head?, c = '/') :
    (number ++ more).takeWhile (· ≠ '/') = number := by
  rw [List.takeWhile_append_of_pos (by intro c hc; simp; rintro rfl; exact h hc)]
  cases more with
  | nil => simp
  | cons a as => have := hm a (by simp); subst this; simp

theorem parseIndex_iff (w : List Char) (r : Int) : parseIndex w = .ok r ↔ IndexWord w (r + 1) := by
  unfold parseIndex IndexWord
  rw [bind_eq_ok]
  simp only [check_ok]
  constructor
  · rintro ⟨i, hi, h⟩
    split at h
    · cases h
    · rename_i h1
      cases h
      rw [parseInt_iff] at hi
      refine ⟨w.takeWhile (· ≠ '/'), w.dropWhile (· ≠ '/'), List.takeWhile_append_dropWhile.symm, ?_, ?_, ?_, ?_, ?_⟩
      · intro hc
        have := List.all_eq_true.1 List.all_takeWhile _ hc
        simp at this
      · intro c hc
        have := List.head?_dropWhile_not (fun c => decide (c ≠ '/')) w
        simp only [Option.mem_def] at hc
        rw [hc] at this
        simpa using this
      · simpa using hi.1
      · omega
      · have := hi.2.2; norm_num at this ⊢; omega
  · rintro ⟨number, more, rfl, h1, h2, h3, h4, h5⟩
    refine ⟨r + 1, ?_, ?_⟩
    · rw [takeWhile_word _ _ h1 h2, parseInt_iff]
      exact ⟨h3, by norm_num; omega, by norm_num at h5 ⊢; omega⟩
    · rw [if_neg (by omega)]
      show Except.ok (r + 1 - 1) = _
      congr 1; omega

theorem mapM_parseIndex (args : List (List Char)) (f : List Int) :
    args.mapM parseIndex = .ok f ↔ List.Forall₂ IndexWord args (f.map (· + 1)) := by
  induction args generalizing f with
  | nil =>
    rw [List.mapM_nil]
    constructor
    · intro h; cases h; exact .nil
    · intro h
      cases f with
      | nil => rfl
      | cons a as => cases h
  | cons w ws ih =>
    rw [List.mapM_cons]
    constructor
    · intro h
      obtain ⟨a, ha, h⟩ := bind_eq_ok.1 h
      obtain ⟨as, has, h⟩ := bind_eq_ok.1 h
      cases h
      exact .cons ((parseIndex_iff _ _).1 ha) ((ih _).1 has)
    · intro h
      cases f with
      | nil => cases h
      | cons a as =>
        obtain ⟨h1, h2⟩ := List.forall₂_cons.1 h
        rw [(parseIndex_iff _ _).2 h1, ok_bind, (ih _).2 h2]
        rfl

/-- The effect of an item on the state. -/
def Item.apply (st : St F) : Item F → St F
  | .vertex v => { st with vertices := st.vertices ++ [v] }
  | .face idx => { st with faces := fun m => if m = st.usemtl then st.faces m ++ [idx.map (· - 1)] else st.faces m }
  | .material m => { st with usemtl := m }
  | .nothing => st

theorem parseV_iff (rd : Reader F) (st st' : St F) (args : List (List Char)) :
    parseV rd st args = .ok st' ↔ ∃ v, Means rd (['v'] :: args) (.vertex v) ∧ st' = Item.apply st (.vertex v) := by
  constructor
  · intro h
    unfold parseV at h
    split at h
    · rename_i x y z rest
      split at h
      · rename_i hr
        obtain ⟨a, ha, h⟩ := bind_eq_ok.1 h
        obtain ⟨b, hb, h⟩ := bind_eq_ok.1 h
        obtain ⟨c, hc, h⟩ := bind_eq_ok.1 h
        rw [check_ok] at ha hb hc
        cases h
        refine ⟨⟨a, b, c⟩, ⟨x, y, z, ?_, ha, hb, hc⟩, rfl⟩
        cases rest with
        | nil => exact .inl rfl
        | cons t ts =>
          have : ts = [] := List.eq_nil_of_length_eq_zero (by simp at hr; simpa using hr)
          subst this
          exact .inr ⟨t, rfl⟩
      · cases h
    · cases h
  · rintro ⟨v, ⟨x, y, z, h, h1, h2, h3⟩, rfl⟩
    rcases h with h | ⟨t, h⟩
    · cases h
      simp only [parseV, h1, h2, h3, check, ok_bind]; rfl
    · cases h
      simp only [parseV, h1, h2, h3, check, ok_bind]; rfl

theorem parseF_iff (rd : Reader F) (st st' : St F) (args : List (List Char)) :
    parseF st args = .ok st' ↔ ∃ idx, Means rd (['f'] :: args) (.face idx) ∧ st' = Item.apply st (.face idx) := by
  unfold parseF
  constructor
  · intro h
    split at h
    · rename_i hl
      obtain ⟨f, hf, h⟩ := bind_eq_ok.1 h
      cases h
      refine ⟨f.map (· + 1), ⟨args, rfl, hl, (mapM_parseIndex _ _).1 hf⟩, ?_⟩
      have : ((fun x : Int => x - 1) ∘ fun x => x + 1) = id := by funext x; simp
      simp [Item.apply, this]
    · cases h
  · rintro ⟨idx, ⟨args', h, hl, hf⟩, rfl⟩
    cases h
    rw [if_pos hl]
    have e : ((fun x : Int => x + 1) ∘ fun x => x - 1) = id := by funext x; simp
    have := (mapM_parseIndex args (idx.map (· - 1))).2 (by simpa [e] using hf)
    rw [this]
    rfl

theorem parseLine_iff (rd : Reader F) (st st' : St F) (l : List Char) :
    parseLine rd st l = .ok st' ↔ ∃ it, Means rd (fields l) it ∧ st' = Item.apply st it := by
  unfold parseLine
  split
  · rename_i he
    rw [he]
    constructor
    · intro h; cases h; exact ⟨.nothing, .inl rfl, rfl⟩
    · rintro ⟨it, hm, rfl⟩
      cases it with
      | nothing => rfl
      | vertex v => obtain ⟨x, y, z, h | ⟨t, h⟩, -⟩ := hm <;> cases h
      | face idx => obtain ⟨a, h, -⟩ := hm; cases h
      | material m => cases hm
  · rename_i command args he
    rw [he]
    have nothing_cmd : ∀ {it : Item F}, Means rd (command :: args) it → it = .nothing → command ∈ ignored := by
      rintro it hm rfl
      rcases hm with h | ⟨c, a, h, hc⟩
      · cases h
      · cases h; exact hc
    by_cases hv : command = "v".toList
    · rw [if_pos hv, parseV_iff]
      have hv' : command = ['v'] := hv
      subst hv'
      constructor
      · rintro ⟨v, h⟩; exact ⟨_, h⟩
      · rintro ⟨it, hm, h⟩
        cases it with
        | vertex v => exact ⟨v, hm, h⟩
        | nothing => have := nothing_cmd hm rfl; simp [ignored] at this
        | face idx => obtain ⟨a, h, -⟩ := hm; cases h
        | material m => cases hm
    rw [if_neg hv]
    by_cases hf : command = "f".toList
    · rw [if_pos hf, parseF_iff rd]
      have hf' : command = ['f'] := hf
      subst hf'
      constructor
      · rintro ⟨v, h⟩; exact ⟨_, h⟩
      · rintro ⟨it, hm, h⟩
        cases it with
        | face v => exact ⟨v, hm, h⟩
        | nothing => have := nothing_cmd hm rfl; simp [ignored] at this
        | vertex idx => obtain ⟨x, y, z, h | ⟨t, h⟩, -⟩ := hm <;> cases h
        | material m => cases hm
    rw [if_neg hf]
    by_cases hu : command = "usemtl".toList
    · rw [if_pos hu]
      subst hu
      constructor
      · intro h
        unfold parseUsemtl at h
        split at h
        · cases h
          exact ⟨.material _, rfl, rfl⟩
        · cases h
      · rintro ⟨it, hm, rfl⟩
        cases it with
        | face v => obtain ⟨a, h, -⟩ := hm; cases h
        | nothing => have := nothing_cmd hm rfl; simp [ignored] at this
        | vertex idx => obtain ⟨x, y, z, h | ⟨t, h⟩, -⟩ := hm <;> cases h
        | material m => cases hm; rfl
    rw [if_neg hu]
    by_cases hi : command ∈ ignored
    · rw [if_pos hi]
      constructor
      · intro h; cases h; exact ⟨.nothing, .inr ⟨_, _, rfl, hi⟩, rfl⟩
      · rintro ⟨it, hm, rfl⟩
        cases it with
        | face v => obtain ⟨a, h, -⟩ := hm; cases h; exact absurd rfl hf
        | nothing => rfl
        | vertex idx => obtain ⟨x, y, z, h | ⟨t, h⟩, -⟩ := hm <;> (cases h; exact absurd rfl hv)
        | material m => cases hm; exact absurd rfl hu
    rw [if_neg hi]
    constructor
    · intro h; cases h
    · rintro ⟨it, hm, rfl⟩
      cases it with
      | face v => obtain ⟨a, h, -⟩ := hm; cases h; exact absurd rfl hf
      | nothing => exact absurd (nothing_cmd hm rfl) hi
      | vertex idx => obtain ⟨x, y, z, h | ⟨t, h⟩, -⟩ := hm <;> (cases h; exact absurd rfl hv)
      | material m => cases hm; exact absurd rfl hu

theorem foldl_items (st : St F) (items : List (Item F)) :
    (items.foldl Item.apply st).vertices = st.vertices ++ verticesOf items ∧
      ∀ m, (items.foldl Item.apply st).faces m = st.faces m ++ facesOf m st.usemtl items := by
  induction items generalizing st with
  | nil => simp [verticesOf, facesOf]
  | cons it items ih =>
    obtain ⟨h1, h2⟩ := ih (Item.apply st it)
    rw [List.foldl_cons]
    refine ⟨?_, fun m => ?_⟩
    · rw [h1]; cases it <;> simp [Item.apply, verticesOf]
    · rw [h2]
      cases it with
      | face idx => simp only [Item.apply, facesOf]; split <;> simp
      | _ => simp [Item.apply, facesOf]

theorem foldlM_lines (rd : Reader F) (lines : List (List Char)) (st st' : St F) :
    lines.foldlM (fun st l => if tooLong l then errorf else parseLine rd st (dropCR l)) st = .ok st' ↔
      (∀ l ∈ lines, ¬ tooLong l) ∧ ∃ items, List.Forall₂ (fun l it => Means rd (fields l) it) lines items ∧
        st' = items.foldl Item.apply st := by
  induction lines generalizing st with
  | nil =>
    rw [List.foldlM_nil]
    constructor
    · intro h; cases h; exact ⟨by simp, [], .nil, rfl⟩
    · rintro ⟨-, items, h, rfl⟩; cases h; rfl
  | cons l ls ih =>
    rw [List.foldlM_cons]
    constructor
    · intro h
      obtain ⟨s1, h1, h2⟩ := bind_eq_ok.1 h
      split at h1
      · cases h1
      · rename_i hl
        obtain ⟨it, hm, rfl⟩ := (parseLine_iff _ _ _ _).1 h1
        obtain ⟨h3, items, h4, rfl⟩ := (ih _).1 h2
        refine ⟨?_, it :: items, .cons (by rwa [fields_dropCR] at hm) h4, rfl⟩
        intro x hx
        rcases List.mem_cons.1 hx with rfl | hx
        exacts [hl, h3 x hx]
    · rintro ⟨h3, items, h4, rfl⟩
      cases items with
      | nil => cases h4
      | cons it items =>
        obtain ⟨hm, h4⟩ := List.forall₂_cons.1 h4
        rw [if_neg (h3 l (by simp)), (parseLine_iff rd st (Item.apply st it) _).2 ⟨it, by rwa [fields_dropCR], rfl⟩, ok_bind]
        exact (ih _).2 ⟨fun x hx => h3 x (by simp [hx]), items, h4, rfl⟩

end BR.Wavefront
