import Verif.Lemmas.Names
import Verif.Props.C56_Defaults
import Verif.Props.C57_FileNames
import Verif.Props.C80_Picture

/-! C82: an animation leaves one file per frame, with the picture of that frame. -/

namespace BR
set_option linter.unusedSectionVars false

section
variable {F : Type} [Add F] [Sub F] [Mul F] [Div F] [Neg F] [GoFloat F]

/-! ## Specification -/

/-- What a file holds after these events: nothing if it was not written, `some none` if it is incomplete. -/
def contents (log : List (AnimEvent F)) (name : List Char) : Option (Option (FramePicture F)) :=
  log.foldl (fun cur e => match e with
    | .mkdir _ => cur
    | .write file pic => if file = name then some (some pic) else cur
    | .broken file => if file = name then some none else cur) none

/-- The file of frame `i`, and the file of the latest frame. -/
def framePath (out : List Char) (i : Nat) : List Char := pathClean (frameDir out) ++ '/' :: frameFile i
def lastPath (out : List Char) : List Char := pathClean (frameDir out) ++ "/last.jpg".toList

/-- The picture of frame `i`: the scene that `f` gives for it, with its defaults filled in, with the number of passes it
asks for, anti-aliased if there are several. -/
def framePic (f : Nat → GoM (Spec F)) (i : Nat) : Option (FramePicture F) :=
  match f i with
  | .error _ => none
  | .ok spec =>
    match spec.initDefaults with
    | .error _ => none
    | .ok s => some ⟨s, decide (1 < s.numPass), s.numPass.toNat⟩

/-! ## File names -/

private theorem frames_plain (x : List Char) : Plain (x ++ "-frames".toList) := by
  have hl : ∀ y : List Char, (x ++ "-frames".toList) = y → 7 ≤ y.length := by
    rintro y rfl
    simp
  refine ⟨fun h => ?_, fun h => ?_, fun h => ?_⟩ <;> · have := hl _ h; simp at this

theorem frameFile_digits (i : Nat) : ∃ ds : List Char, frameFile i = ds ++ ".jpg".toList ∧ (∀ c ∈ ds, c.isDigit) ∧
    5 ≤ ds.length ∧ Nat.ofDigitChars 10 ds 0 = i ∧ (i < 100000 → ds.length = 5) := by
  refine ⟨List.replicate (5 - (Nat.toDigits 10 i).length) '0' ++ Nat.toDigits 10 i, rfl, fun c hc => ?_, ?_, ?_, fun h => ?_⟩
  · rcases List.mem_append.1 hc with hc | hc
    · rw [(List.mem_replicate.1 hc).2]; decide
    · exact Nat.isDigit_of_mem_toDigits (by decide) (by decide) hc
  · rw [List.length_append, List.length_replicate]; omega
  · rw [Nat.ofDigitChars_append, Nat.ofDigitChars_replicate_zero, Nat.mul_zero, Nat.ofDigitChars_ten_toDigits]
  · have := (Nat.length_toDigits_le_iff (b := 10) (n := i) (k := 5) (by decide) (by decide)).2 h
    rw [List.length_append, List.length_replicate]; omega

private theorem frameFile_plain (i : Nat) : '/' ∉ frameFile i ∧ Plain (frameFile i) := by
  obtain ⟨ds, e, hd, hl, -⟩ := frameFile_digits i
  rw [e]
  refine ⟨fun h => ?_, ?_⟩
  · rcases List.mem_append.1 h with h | h
    · exact absurd (hd _ h) (by decide)
    · revert h; decide
  · have hlen : ∀ y : List Char, ds ++ ".jpg".toList = y → 9 ≤ y.length := by
      rintro y rfl
      simp; omega
    refine ⟨fun h => ?_, fun h => ?_, fun h => ?_⟩ <;> · have := hlen _ h; simp at this

private theorem dash_slash : '/' ∉ "-frames".toList := by decide

/-- **C82, names.** The file of frame `i` is in the directory `<name>-frames`, where `<name>` is the output file without
its extension. Its name is the number of the frame with at least five digits, and it is a JPEG file. -/
theorem C82_names (out : List Char) (i : Nat) :
    pathJoin (frameDir out) (frameFile i) = framePath out i ∧ pathJoin (frameDir out) "last.jpg".toList = lastPath out ∧
    HasExt (framePath out i) ".jpg".toList ∧ HasExt (lastPath out) ".jpg".toList ∧
    ∃ ds : List Char, frameFile i = ds ++ ".jpg".toList ∧ (∀ c ∈ ds, c.isDigit) ∧ 5 ≤ ds.length ∧
      Nat.ofDigitChars 10 ds 0 = i := by
  obtain ⟨h1, h2⟩ := frameFile_plain i
  obtain ⟨ds, e, hd, hl, hv, -⟩ := frameFile_digits i
  refine ⟨pathJoin_plain _ _ _ dash_slash frames_plain h1 h2,
    pathJoin_plain _ _ _ dash_slash frames_plain (by decide) ⟨by decide, by decide, by decide⟩, ?_, ?_, ds, e, hd, hl, hv⟩
  · refine ⟨pathClean (frameDir out) ++ '/' :: ds, "jpg".toList, ?_, rfl, by decide, by decide⟩
    unfold framePath
    rw [e]
    simp
  · refine ⟨pathClean (frameDir out) ++ "/last".toList, "jpg".toList, ?_, rfl, by decide, by decide⟩
    unfold lastPath
    simp

/-- **C82.** Where the files are: if `stem` is the output name without its extension, frame `i` is the file `frameFile i`
in the directory `stem-frames`, and so is `last.jpg`; and this is the directory that was made. -/
theorem C82_place (out stem : List Char)
    (hstem : (∃ e, HasExt out e ∧ out = stem ++ e) ∨ ((∀ e, ¬HasExt out e) ∧ stem = out)) (cwd : List (List Char)) (i : Nat) :
    frameDir out = stem ++ "-frames".toList ∧
    placeOf cwd (framePath out i) = frameFile i :: placeOf cwd (stem ++ "-frames".toList) ∧
    placeOf cwd (lastPath out) = "last.jpg".toList :: placeOf cwd (stem ++ "-frames".toList) := by
  have hd : frameDir out = stem ++ "-frames".toList := by
    rw [frameDir]
    congr 1
    rcases hstem with ⟨e, he, h⟩ | ⟨hno, rfl⟩
    · have h1 := C57_roundtrip out
      rw [((C57_ext out e).2 he).1] at h1
      exact List.append_cancel_right (h1.trans h)
    · rcases C57_stripped stem with ⟨e, he, -⟩ | ⟨-, h⟩
      · exact absurd he (hno e)
      · exact h
  have hne : stem ++ "-frames".toList ≠ [] := by simp
  have hn := C82_names out i
  refine ⟨hd, ?_, ?_⟩
  · rw [← hn.1, hd, placeOf_join _ _ _ (frameFile_plain i).1 (frameFile_plain i).2 hne]
  · rw [← hn.2.1, hd, placeOf_join _ _ _ (by decide) (by unfold Plain; decide) hne]

/-- A name with an extension, a directory and a step up. -/
example (cwd : List (List Char)) (i : Nat) :
    placeOf ("a".toList :: "b".toList :: cwd) (framePath "../../x.y/../pic.v2.jpg".toList i) =
      [frameFile i, "pic.v2-frames".toList] ++ cwd := by
  rw [(C82_place "../../x.y/../pic.v2.jpg".toList "../../x.y/../pic.v2".toList
    (.inl ⟨".jpg".toList, ⟨"../../x.y/../pic.v2".toList, "jpg".toList, by decide, by decide, by decide, by decide⟩,
      by decide⟩) _ i).2.1]
  rfl

/-- **C82, distinct names.** Different frames have different files, none of which is `last.jpg`. -/
theorem C82_distinct (out : List Char) (i j : Nat) :
    (framePath out i = framePath out j → i = j) ∧ framePath out i ≠ lastPath out := by
  obtain ⟨ds, e, hd, hl, hv, -⟩ := frameFile_digits i
  obtain ⟨ds', e', -, -, hv', -⟩ := frameFile_digits j
  constructor
  · intro h
    have h1 : frameFile i = frameFile j := by
      have := List.append_cancel_left h
      simpa using this
    rw [e, e'] at h1
    have := List.append_cancel_right h1
    rw [← hv, ← hv', this]
  · intro h
    have h1 : frameFile i = "last.jpg".toList := by
      have := List.append_cancel_left h
      simpa using this
    rw [e] at h1
    have := congrArg List.length h1
    simp at this
    omega

/-- **C82, order of names.** Up to 100000 frames, the files sorted by name are in the order of the frames.
Missing: longer animations, see `C82_violated_order`. -/
theorem C82_order_partial (out : List Char) (i j : Nat) (h : i < j) (hj : j < 100000) :
    framePath out i < framePath out j := by
  obtain ⟨ds, e, hd, -, hv, hl⟩ := frameFile_digits i
  obtain ⟨ds', e', hd', -, hv', hl'⟩ := frameFile_digits j
  have key : frameFile i < frameFile j := by
    rw [e, e']
    exact digits_lex _ _ _ _ hd hd' (by rw [hl (by omega), hl' hj]) (by rw [hv, hv']; exact h)
  unfold framePath
  induction pathClean (frameDir out) with
  | nil => exact List.Lex.cons key
  | cons c cs ih => exact List.Lex.cons ih

/-- **C82 violated: order of names.** Frame 100000 sorts before frame 99999. -/
theorem C82_violated_order (out : List Char) : framePath out 100000 < framePath out 99999 := by
  have key : frameFile 100000 < frameFile 99999 := by decide +kernel
  unfold framePath
  induction pathClean (frameDir out) with
  | nil => exact List.Lex.cons key
  | cons c cs ih => exact List.Lex.cons ih

/-! ## What is written -/

/-- The events of the first `k` frames. -/
private def firstFrames (out : List Char) (f : Nat → GoM (Spec F)) (k : Nat) (log : List (AnimEvent F)) : Prop :=
  ∃ pics : Nat → FramePicture F, (∀ i < k, framePic f i = some (pics i)) ∧
    log = (List.range k).flatMap fun i => [.mkdir (frameDir out), .write (lastPath out) (pics i), .write (framePath out i) (pics i)]

/-- Where an interrupted frame `k` can have stopped. -/
private def stopped (out : List Char) (k : Nat) (tail : List (AnimEvent F)) : Prop :=
  tail = [] ∨ tail = [.mkdir (frameDir out)] ∨ tail = [.mkdir (frameDir out), .broken (lastPath out)] ∨
  (∃ pic, tail = [.mkdir (frameDir out), .write (lastPath out) pic]) ∨
  ∃ pic, tail = [.mkdir (frameDir out), .write (lastPath out) pic, .broken (framePath out k)]

private theorem target (name : List Char) (h : HasExt name ".jpg".toList) : saveTarget name [] = .ok (.jpeg, name) :=
  (C57_image name).2.1 (.inl h)

private theorem renderFrame_spec (env : List (AnimEvent F) → WriteOutcome) (shoot : FramePicture F → Bool) (out : List Char)
    (f : Nat → GoM (Spec F)) (i : Nat) (spec : Spec F) (hf : f i = .ok spec) (log : List (AnimEvent F)) :
    (∃ pic, framePic f i = some pic ∧ renderFrame env shoot out spec i log =
      (log ++ [.mkdir (frameDir out), .write (lastPath out) pic, .write (framePath out i) pic], true)) ∨
    ∃ tail, stopped out i tail ∧ renderFrame env shoot out spec i log = (log ++ tail, false) := by
  obtain ⟨n1, n2, n3, n4, -⟩ := C82_names out i
  unfold renderFrame
  cases hs : spec.initDefaults with
  | error e => exact .inr ⟨[], .inl rfl, by simp⟩
  | ok s =>
    dsimp only
    have hpic : framePic f i = some ⟨s, decide (s.numPass > 1), s.numPass.toNat⟩ := by
      unfold framePic
      rw [hf]
      dsimp only
      rw [hs]
    generalize (⟨s, decide (s.numPass > 1), s.numPass.toNat⟩ : FramePicture F) = pic at *
    cases hshoot : shoot pic with
    | false => exact .inr ⟨[], .inl rfl, by simp⟩
    | true =>
      rw [n1, n2]
      simp only [if_true, saveFrame, target _ n3, target _ n4]
      cases env (log ++ [.mkdir (frameDir out)]) with
      | notCreated => exact .inr ⟨_, .inr (.inl rfl), rfl⟩
      | incomplete => exact .inr ⟨_, .inr (.inr (.inl rfl)), by simp⟩
      | written =>
        dsimp only
        cases env (log ++ [.mkdir (frameDir out)] ++ [.write (lastPath out) pic]) with
        | notCreated => exact .inr ⟨_, .inr (.inr (.inr (.inl ⟨pic, rfl⟩))), by simp⟩
        | incomplete => exact .inr ⟨_, .inr (.inr (.inr (.inr ⟨pic, rfl⟩))), by simp⟩
        | written => exact .inl ⟨pic, hpic, by simp⟩

private theorem firstFrames_succ {out : List Char} {f : Nat → GoM (Spec F)} {k : Nat} {log : List (AnimEvent F)}
    (h : firstFrames out f k log) {pic : FramePicture F} (hp : framePic f k = some pic) :
    firstFrames out f (k + 1)
      (log ++ [.mkdir (frameDir out), .write (lastPath out) pic, .write (framePath out k) pic]) := by
  obtain ⟨pics, h1, rfl⟩ := h
  refine ⟨fun i => if i = k then pic else pics i, fun i hi => ?_, ?_⟩
  · dsimp only
    by_cases e : i = k
    · rw [if_pos e, e]; exact hp
    · rw [if_neg e]; exact h1 i (by omega)
  · rw [List.range_succ, List.flatMap_append]
    congr 1
    · refine List.flatMap_congr fun i hi => ?_
      dsimp only
      rw [if_neg (by have := List.mem_range.1 hi; omega)]
    · simp

private theorem animateFrom_spec (env : List (AnimEvent F) → WriteOutcome) (shoot : FramePicture F → Bool) (out : List Char)
    (f : Nat → GoM (Spec F)) (n i : Nat) (log : List (AnimEvent F)) (hlog : firstFrames out f i log) :
    ((animateFrom env shoot out f n i log).2 = true ∧ firstFrames out f (i + n) (animateFrom env shoot out f n i log).1) ∨
    ((animateFrom env shoot out f n i log).2 = false ∧ ∃ k < i + n, ∃ l tail, firstFrames out f k l ∧ stopped out k tail ∧
      (animateFrom env shoot out f n i log).1 = l ++ tail) := by
  induction n generalizing i log with
  | zero => exact .inl ⟨rfl, hlog⟩
  | succ n ih =>
    rw [animateFrom]
    cases hf : f i with
    | error e => exact .inr ⟨rfl, i, by omega, log, [], hlog, .inl rfl, by simp⟩
    | ok spec =>
      dsimp only
      rcases renderFrame_spec env shoot out f i spec hf log with ⟨pic, hp, e⟩ | ⟨tail, ht, e⟩
      · rw [e]
        dsimp only
        have := ih (i + 1) _ (firstFrames_succ hlog hp)
        rwa [show i + 1 + n = i + (n + 1) by omega] at this
      · rw [e]
        exact .inr ⟨rfl, i, by omega, log, tail, hlog, ht, rfl⟩

private theorem contents_append (a b : List (AnimEvent F)) (name : List Char) :
    contents (a ++ b) name = b.foldl (fun cur e => match e with
      | .mkdir _ => cur
      | .write file pic => if file = name then some (some pic) else cur
      | .broken file => if file = name then some none else cur) (contents a name) := by
  unfold contents
  rw [List.foldl_append]

/-- What the files hold after the first `k` frames. -/
private theorem contents_first {out : List Char} {f : Nat → GoM (Spec F)} {k : Nat} {log : List (AnimEvent F)}
    (h : firstFrames out f k log) :
    (∀ i, contents log (framePath out i) = if i < k then (framePic f i).map some else none) ∧
    (contents log (lastPath out) = if k = 0 then none else (framePic f (k - 1)).map some) ∧
    (∀ i < k, (framePic f i).isSome) ∧
    ∀ name, (∀ i < k, name ≠ framePath out i) → name ≠ lastPath out → contents log name = none := by
  obtain ⟨pics, h1, rfl⟩ := h
  induction k with
  | zero => exact ⟨fun i => by simp [contents], by simp [contents], fun i hi => absurd hi (by omega), fun _ _ _ => rfl⟩
  | succ k ih =>
    obtain ⟨a, b, c, d⟩ := ih fun i hi => h1 i (by omega)
    have hk := h1 k (by omega)
    rw [List.range_succ, List.flatMap_append]
    simp only [List.flatMap_cons, List.flatMap_nil, List.append_nil]
    refine ⟨fun i => ?_, ?_, fun i hi => by rw [h1 i hi]; rfl, fun name h2 h3 => ?_⟩
    · rw [contents_append, a]
      simp only [List.foldl_cons, List.foldl_nil]
      have n1 : lastPath out ≠ framePath out i := fun h => (C82_distinct out i i).2 h.symm
      rw [if_neg n1]
      by_cases e : i = k
      · subst e
        rw [if_pos rfl, if_pos (by omega), hk]
        rfl
      · rw [if_neg (fun h => e ((C82_distinct out k i).1 h).symm)]
        by_cases hi : i < k
        · rw [if_pos hi, if_pos (by omega)]
        · rw [if_neg hi, if_neg (by omega)]
    · rw [contents_append]
      simp only [List.foldl_cons, List.foldl_nil]
      rw [if_neg (C82_distinct out k k).2, if_pos trivial, Nat.add_sub_cancel, hk, if_neg (Nat.succ_ne_zero k)]
      rfl
    · rw [contents_append, d name (fun i hi => h2 i (by omega)) h3]
      simp only [List.foldl_cons, List.foldl_nil]
      rw [if_neg (Ne.symm h3), if_neg (Ne.symm (h2 k (by omega)))]

/-- **C82.** When an animation of `n` frames has ended normally, the file of every frame holds the picture of that frame,
`last.jpg` holds the picture of the last frame, and no other file was written. Whatever the file system and the samplers
do, and whatever the scenes have to do with each other. -/
theorem C82_complete (env : List (AnimEvent F) → WriteOutcome) (shoot : FramePicture F → Bool) (out : List Char)
    (f : Nat → GoM (Spec F)) (n : Int) (h : (animate env shoot out f n).2 = true) :
    (∀ i < n.toNat, ∃ pic, framePic f i = some pic ∧
      contents (animate env shoot out f n).1 (framePath out i) = some (some pic)) ∧
    (0 < n → ∃ pic, framePic f (n.toNat - 1) = some pic ∧
      contents (animate env shoot out f n).1 (lastPath out) = some (some pic)) ∧
    ∀ name, (∀ i < n.toNat, name ≠ framePath out i) → name ≠ lastPath out →
      contents (animate env shoot out f n).1 name = none := by
  have h0 : firstFrames out f 0 [] := ⟨fun i => (⟨⟨[], [], [], none, 0, 0, 0, 0, 0, lit 0, 0⟩, false, 0⟩ : FramePicture F),
    fun i hi => absurd hi (by omega), by simp⟩
  rcases animateFrom_spec env shoot out f n.toNat 0 [] h0 with ⟨-, h1⟩ | ⟨h1, -⟩
  swap
  · rw [show animateFrom env shoot out f n.toNat 0 [] = animate env shoot out f n from rfl, h] at h1
    cases h1
  rw [Nat.zero_add] at h1
  obtain ⟨a, b, c, d⟩ := contents_first h1
  rw [show animateFrom env shoot out f n.toNat 0 [] = animate env shoot out f n from rfl] at a b d
  refine ⟨fun i hi => ?_, fun hn => ?_, d⟩
  · obtain ⟨pic, hp⟩ := Option.isSome_iff_exists.1 (c i hi)
    exact ⟨pic, hp, by rw [a, if_pos hi, hp]; rfl⟩
  · obtain ⟨pic, hp⟩ := Option.isSome_iff_exists.1 (c (n.toNat - 1) (by omega))
    exact ⟨pic, hp, by rw [b, if_neg (by omega), hp]; rfl⟩

/-- **C82, interrupted.** If the program stops early, because a scene or a render panics or a file cannot be written, it
stops in some frame `k`: the files of the frames before it are complete and right, there are none for the frames after
it, and that of frame `k` is missing or incomplete. -/
theorem C82_interrupted (env : List (AnimEvent F) → WriteOutcome) (shoot : FramePicture F → Bool) (out : List Char)
    (f : Nat → GoM (Spec F)) (n : Int) (h : (animate env shoot out f n).2 = false) :
    ∃ k < n.toNat, (∀ i < k, ∃ pic, framePic f i = some pic ∧
        contents (animate env shoot out f n).1 (framePath out i) = some (some pic)) ∧
      (contents (animate env shoot out f n).1 (framePath out k) = none ∨
        contents (animate env shoot out f n).1 (framePath out k) = some none) ∧
      ∀ i, k < i → contents (animate env shoot out f n).1 (framePath out i) = none := by
  have h0 : firstFrames out f 0 [] := ⟨fun i => (⟨⟨[], [], [], none, 0, 0, 0, 0, 0, lit 0, 0⟩, false, 0⟩ : FramePicture F),
    fun i hi => absurd hi (by omega), by simp⟩
  rcases animateFrom_spec env shoot out f n.toNat 0 [] h0 with ⟨h1, -⟩ | ⟨-, k, hk, l, tail, hl, ht, e⟩
  · rw [show animateFrom env shoot out f n.toNat 0 [] = animate env shoot out f n from rfl, h] at h1
    cases h1
  rw [Nat.zero_add] at hk
  rw [show animateFrom env shoot out f n.toNat 0 [] = animate env shoot out f n from rfl] at e
  obtain ⟨a, b, c, d⟩ := contents_first hl
  -- the tail only touches `last.jpg` and the file of frame `k`
  have other : ∀ i, i ≠ k → contents (l ++ tail) (framePath out i) = contents l (framePath out i) := by
    intro i hi
    have n1 : lastPath out ≠ framePath out i := fun h => (C82_distinct out i i).2 h.symm
    have n2 : framePath out k ≠ framePath out i := fun h => hi ((C82_distinct out k i).1 h).symm
    rw [contents_append]
    rcases ht with rfl | rfl | rfl | ⟨pic, rfl⟩ | ⟨pic, rfl⟩ <;>
      simp only [List.foldl_cons, List.foldl_nil, if_neg n1, if_neg n2]
  have this_one : contents (l ++ tail) (framePath out k) = none ∨ contents (l ++ tail) (framePath out k) = some none := by
    have n1 : lastPath out ≠ framePath out k := fun h => (C82_distinct out k k).2 h.symm
    rw [contents_append, a, if_neg (Nat.lt_irrefl k)]
    rcases ht with rfl | rfl | rfl | ⟨pic, rfl⟩ | ⟨pic, rfl⟩ <;>
      simp only [List.foldl_cons, List.foldl_nil, if_neg n1]
    · exact .inl trivial
    · exact .inl trivial
    · exact .inl trivial
    · exact .inl trivial
    · exact .inr (if_pos trivial)
  rw [e]
  refine ⟨k, hk, fun i hi => ?_, this_one, fun i hi => ?_⟩
  · obtain ⟨pic, hp⟩ := Option.isSome_iff_exists.1 (c i hi)
    exact ⟨pic, hp, by rw [other i (by omega), a, if_pos hi, hp]; rfl⟩
  · rw [other i (by omega), a, if_neg (by omega)]

/-- **C82, passes.** One pass at a time gives what all passes at once give: after `n` calls of `Sample(1)`, with any
numbers of workers and any schedules, every pixel holds the colours of passes 0 to `n - 1`. -/
theorem C82_passes {C : Type} (sh : Shader F C) (w h : Nat) (aa : Bool) (I : C → Prop) (g : Pixel → Nat → Color F)
    (hdet : Deterministic sh w h aa I g) (n : Nat) (mem : Pixel → Cell F) (hm : Shots sh w h aa I n mem) (p : Pixel)
    (hx : p.1 < w) (hy : p.2 < h) : mem p = accumulate (g p) Cell.zero n := by
  induction hm with
  | start => rfl
  | sample hprev hW hfresh hrun hdone ih =>
    rw [C03_result hdet hfresh hW _ _ hrun hdone p, if_pos ⟨hx, hy⟩]
    show (_ : Cell F) = _
    simp only [accumulate, ih]

end

/-! ## Moving balls -/

variable {S : Type}

/-- **C82 with C80.** An animation of painted flat spheres that move, change and come and go from frame to frame, while the
camera moves too: when it has ended normally, the file of each frame with one pass shows the spheres of that frame as
seen by the camera of that frame, in every pixel. -/
theorem C82_balls (env : List (AnimEvent Ext) → WriteOutcome) (shoot : FramePicture Ext → Bool) (out : List Char)
    (f : Nat → GoM (Spec Ext)) (n : Int) (hend : (animate env shoot out f n).2 = true) (i : Nat) (hi : i < n.toNat)
    (spec : Spec Ext) (hf : f i = .ok spec) (hl : spec.lights = []) (hm : spec.media = []) (hr0 : 0 ≤ spec.recursion)
    (hp : spec.numPass = 0 ∨ spec.numPass = 1) (w h : Nat) (hw : spec.width = w) (hh : spec.height = h) (hw0 : 0 < w)
    (hh0 : 0 < h) (hd1 : spec.debugNormals = 0) (hd2 : (spec.debugIsometricFOV ==. lit 0) = true)
    (things : List Thing) (hs : List.Forall₂ IsBall spec.objects things)
    (V : View) (h0 : 0 < V.fov) (h1 : V.fov < Real.pi) (fov yaw pitch roll : Ext) (eye : Vec Ext) (hfov : fov.Is V.fov)
    (hy : yaw.Is V.yaw) (hpi : pitch.Is V.pitch) (hr : roll.Is V.roll) (he : eye.Is V.eye) (cam : Cam Ext)
    (hcam : Cam.projective fov = .ok cam) (hcam' : spec.camera = some ((cam.yawPitchRoll yaw pitch roll).translate eye)) :
    ∃ pic, contents (animate env shoot out f n).1 (framePath out i) = some (some pic) ∧
      pic.spec.width = w ∧ pic.spec.height = h ∧ ∀ (rng : Rng Ext S) (shifts : List (Ext × Ext)), w * h ≤ shifts.length → ∀ mem : Pixel → Cell Ext,
        Shots (ctxShader (pic.spec.imageFunc rng)) w h pic.antiAlias (fun c => ∃ seed, c = Ctx.new shifts seed) pic.passes mem →
        ∀ p : Pixel, p.1 < w → p.2 < h → ∃ C, ((mem p).image).Is C ∧ Sees things (V.sight w h p.1 p.2) C := by
  obtain ⟨pic, hpic, hc⟩ := (C82_complete env shoot out f n hend).1 i hi
  refine ⟨pic, hc, ?_⟩
  unfold framePic at hpic
  rw [hf] at hpic
  dsimp only at hpic
  cases hs' : spec.initDefaults with
  | error e => rw [hs'] at hpic; cases hpic
  | ok s =>
    rw [hs'] at hpic
    cases hpic
    obtain ⟨k1, k2, k3, k4, k5, k6, k7⟩ := C56_keeps spec s hs'
    obtain ⟨-, -, -, -, e5, e6, -⟩ := initDefaults_eq spec s hs'
    obtain ⟨o1, o2⟩ := k7 (by omega) (by omega)
    have ecam := k6 hd2 _ hcam'
    have hpass : s.numPass = 1 := by
      rw [e5]
      rcases hp with hp | hp <;> simp [hp]
    have hrec : 0 < s.recursion := by
      rw [e6, if_neg (by omega)]
      split_ifs <;> omega
    refine ⟨(k4 (by omega)).trans hw, (k5 (by omega)).trans hh, ?_⟩
    intro rng shifts hshift mem hshots
    dsimp only at hshots
    rw [hpass] at hshots
    simp only [show decide ((1 : Int) < 1) = false from rfl, show (1 : Int).toNat = 1 from rfl] at hshots
    have himg : s.imageFunc rng = s.scene.imageFunc rng ((cam.yawPitchRoll yaw pitch roll).translate eye) := by
      funext ctx u v
      unfold Spec.imageFunc
      rw [ecam]
    rw [himg] at hshots
    obtain ⟨cam', ecam', hpict⟩ := C80_spheres (S := S) s.scene (o2.trans hm) (k1.trans hl) hrec things
      (by show List.Forall₂ IsBall s.objects things; rw [o1]; exact hs) V h0 h1 fov yaw pitch roll eye hfov hy hpi hr he w h
    rw [hcam] at ecam'
    cases ecam'
    cases hshots with
    | @sample _ mem0 W ctx0 st k hprev hW hfresh hrun hdone =>
      cases hprev
      choose seeds hseeds using hfresh
      have : ctx0 = fun i => Ctx.new shifts (seeds i) := funext hseeds
      rw [this] at hrun
      exact hpict rng shifts hshift W hW seeds 1 (by omega) st k hrun hdone

/-- Non-vacuity: two frames of a ball that moves away, written to frames of `out.jpeg`. -/
noncomputable example : ∃ (f : Nat → GoM (Spec Ext)) (cam : Cam Ext), Cam.projective (lit 1 : Ext) = .ok cam ∧
    (animate (fun _ => .written) (fun _ => true) "a/../out.jpeg".toList f 2).2 = true ∧
    framePath "a/../out.jpeg".toList 1 = "out-frames/00001.jpg".toList := by
  have hpi : (1 : ℝ) < Real.pi := by linarith [Real.two_le_pi]
  have zero : (lit 0 : Ext).Is 0 := by simpa using Ext.Is.lit 0
  have one : (lit 1 : Ext).Is 1 := by simpa using Ext.Is.lit 1
  obtain ⟨cam, ecam, -⟩ := C80_spheres (S := Unit) ⟨[], [], [], 1⟩ rfl rfl (by decide) [] .nil ⟨1, 0, 0, 0, ⟨0, 0, 0⟩⟩
    (by norm_num) hpi (lit 1) (lit 0) (lit 0) (lit 0) ⟨lit 0, lit 0, lit 0⟩ one zero zero zero ⟨zero, zero, zero⟩ 1 1
  refine ⟨fun i => .ok ⟨[], [Obj.sphere (some (.flat fun _ => .ok ⟨lit 1, lit 0, lit 0⟩)) (lit 2)
    ⟨lit 0, lit 0, lit (-5 - i)⟩], [], some ((cam.yawPitchRoll (lit 0) (lit 0) (lit 0)).translate ⟨lit 0, lit 0, lit 0⟩),
    1, 1, 3, 3, 0, lit 0, 0⟩, cam, ecam, ?_, by decide +kernel⟩
  have z : ((lit 0 : Ext) ==. lit 0) = true := by
    have : (lit 0 : Ext).Is 0 := by simpa using Ext.Is.lit 0
    rw [this.eq this]
    simp
  have key : ∀ (env : List (AnimEvent Ext) → WriteOutcome) (henv : ∀ l, env l = .written) (s : Spec Ext) (i : Nat)
      (log : List (AnimEvent Ext)), (∃ s', s.initDefaults = .ok s') →
      (renderFrame env (fun _ => true) "a/../out.jpeg".toList s i log).2 = true := by
    rintro env henv s i log ⟨s', hs'⟩
    obtain ⟨n1, n2, n3, n4, -⟩ := C82_names "a/../out.jpeg".toList i
    unfold renderFrame
    rw [hs']
    simp only [if_true, n1, n2, saveFrame, target _ n3, target _ n4, henv]
  have hdef : ∀ i : Nat, ∃ s', (⟨[], [Obj.sphere (some (.flat fun _ => .ok ⟨lit 1, lit 0, lit 0⟩)) (lit 2)
    ⟨lit 0, lit 0, lit (-5 - i)⟩], [], some ((cam.yawPitchRoll (lit 0) (lit 0) (lit 0)).translate ⟨lit 0, lit 0, lit 0⟩),
    1, 1, 3, 3, 0, lit 0, 0⟩ : Spec Ext).initDefaults = .ok s' := by
    intro i
    simp only [Spec.initDefaults, Spec.defaultCamera, pure_ok, ok_bind, Spec.applyDebugNormals, Spec.applyIsometric]
    norm_num [z]
    exact ⟨_, rfl⟩
  unfold animate
  simp only [show (2 : Int).toNat = 2 from rfl, animateFrom]
  have k0 := fun log => key (fun _ => .written) (fun _ => rfl) _ 0 log (hdef 0)
  have k1 := fun log => key (fun _ => .written) (fun _ => rfl) _ 1 log (hdef 1)
  split
  · rename_i h
    exact absurd (congrArg Prod.snd h) (by rw [k0]; simp)
  · split
    · rename_i h
      exact absurd (congrArg Prod.snd h) (by rw [k1]; simp)
    · rfl

end BR
