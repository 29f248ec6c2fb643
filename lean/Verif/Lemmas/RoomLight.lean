import Verif.Lemmas.RoomShade

/-! In double precision: light can be followed through a room. -/

namespace BR.Bounce

variable {S : Type} {fr : Frame Flo}

/-- A plain material shows its colour. -/
theorem plain_does {rng : Rng Flo S} {s : Scene Flo} {lf : LF Flo S} {d : Int} (m : Mat Flo) (hm : m.Total) (hp : m.Plain)
    (r : Ray Flo) (h : HitCoords Flo) : Does fr d (m.shade rng s lf r h) := by
  induction m with
  | black => intro c hc; exact ⟨_, _, rfl, hc⟩
  | flat tex =>
    intro c hc
    obtain ⟨k, ek⟩ := hm h.loc
    rw [Mat.shade, ek, ok_bind]
    exact ⟨_, _, rfl, hc⟩
  | matte tex => exact hp.elim
  | reflective col => exact hp.elim
  | reflectFresnel n u ih => exact hp.elim
  | refractive n1 n2 => exact hp.elim
  | transparent tex b => exact hp.elim
  | twoSided f b ihf ihb =>
    intro c hc
    rw [Mat.Total] at hm
    rw [Mat.Plain] at hp
    rw [Mat.shade]
    split
    · exact ihf hm.1 hp.1 c hc
    · exact ihb hm.2 hp.2 c hc
  | blend a ma b mb iha ihb =>
    intro c hc
    rw [Mat.Total] at hm
    rw [Mat.Plain] at hp
    obtain ⟨x, c1, e1, hc1⟩ := iha hm.1 hp.1 c hc
    obtain ⟨y, c2, e2, hc2⟩ := ihb hm.2 hp.2 c1 hc1
    rw [Mat.shade, e1, ok_bind]
    dsimp only
    rw [e2, ok_bind]
    exact ⟨_, _, rfl, hc2⟩
  | blendMap tex ma mb iha ihb =>
    intro c hc
    rw [Mat.Total] at hm
    rw [Mat.Plain] at hp
    have key : ∀ (k : Flo) {m : CtxM Flo S (Color Flo)}, Does fr d m → Does fr d (whenPos k m) := by
      intro k m hm c hc
      unfold whenPos
      split
      · exact hm c hc
      · exact ⟨_, _, rfl, hc⟩
    obtain ⟨k, ek⟩ := hm.1 h.loc
    obtain ⟨x, c1, e1, hc1⟩ := key k.R (iha hm.2.1 hp.1) c hc
    obtain ⟨y, c2, e2, hc2⟩ := key (lit 1 - k.R) (ihb hm.2.2 hp.2) c1 hc1
    rw [Mat.shade, ek, ok_bind]
    dsimp only
    rw [e1, ok_bind]
    dsimp only
    rw [e2, ok_bind]
    exact ⟨_, _, rfl, hc2⟩
  | func f =>
    intro c hc
    obtain ⟨k, ek⟩ := hm r h
    rw [Mat.shade, ek, ok_bind]
    exact ⟨_, _, rfl, hc⟩

/-- The light of lamps reaches a point if the rays to them are fair. -/
theorem lamps_do (rng : Rng Flo S) {s : Scene Flo} {lamp : Vec ℝ → Prop} (hos : ∀ o ∈ s.objects, Polite lamp o) {d : Int} (hd : d ≠ 0)
    {p n : Vec Flo} (ls : List (Light Flo)) (hls : ∀ l ∈ ls, ∃ pos power, l = .point pos power ∧ Fair ⟨p, (pos.sub p).normalized⟩)
    (acc : Color Flo) : Does fr d (directLoop rng s.occlude p n ls acc) := by
  induction ls generalizing acc with
  | nil => intro c hc; exact ⟨_, _, rfl, hc⟩
  | cons l ls ih =>
    intro c hc
    have ih' := fun acc => ih (fun l hl => hls l (by simp [hl])) acc
    obtain ⟨pos, power, rfl, hfair⟩ := hls l (by simp)
    rw [directLoop, Light.sample, ok_bind]
    dsimp only
    split
    · exact ih' _ _ hc
    · split
      · exact ih' _ _ hc
      · obtain ⟨c', e⟩ := occludeLoop_room hos (pos.sub p).len (power.mul (Light.pointIntensity p pos)) hfair
        unfold Scene.occlude at ih' ⊢
        rw [e, ok_bind]
        exact ih' _ _ hc

theorem withRay_sane {lf : LF Flo S} {d : Int} {k : ℝ} (hlf : ∀ f r, Sane k r → Does fr d (lf f r)) (f : Field) {r : Ray Flo}
    (hr : Sane k r) : Does fr d (withRay lf f r) := by
  intro c hc
  unfold withRay
  dsimp only
  obtain ⟨x, c1, e, hc1⟩ := hlf f r hr _ (take_ok hc)
  rw [e, ok_bind]
  exact ⟨_, _, rfl, put_ok hc1 _⟩

/-- Any tame material can be shown where a ray has landed. -/
theorem landed_does {rng : Rng Flo S} {sc : Scene Flo} {lf : LF Flo S} {lamp : Vec ℝ → Prop} {d : Int} (hd : d ≠ 0)
    (hos : ∀ o ∈ sc.objects, Polite lamp o) (hls : ∀ l ∈ sc.lights, ∃ L, LampAt l L ∧ lamp L) {k : ℝ}
    (hlf : ∀ f r, Sane (k + 1) r → Does fr d (lf f r)) (m : Mat Flo) (hm : m.Total) (ht : m.Tame) {r : Ray Flo} {h : HitCoords Flo}
    {s δ n : Vec ℝ} {T : ℝ} (hl : Landed lamp k r h s δ T n) : Does fr d (m.shade rng sc lf r h) := by
  induction m with
  | black => intro c hc; exact ⟨_, _, rfl, hc⟩
  | flat tex =>
    intro c hc
    obtain ⟨k, ek⟩ := hm h.loc
    rw [Mat.shade, ek, ok_bind]
    exact ⟨_, _, rfl, hc⟩
  | matte tex =>
    intro c hc
    rw [Mat.shade]
    unfold shadeMatte
    dsimp only
    obtain ⟨acc, c1, e1, hc1⟩ := lamps_do rng hos hd (p := (r.at h.t).madd tiny (flipTowards h.normal r.dir))
      (n := flipTowards h.normal r.dir) sc.lights (fun l hl' => by
        obtain ⟨L, ⟨pos, power, e, hp, wp⟩, hL⟩ := hls l hl'
        exact ⟨pos, power, e, hl.towards hp wp hL⟩) Color.black _ (take_ok hc)
    rw [e1, ok_bind]
    obtain ⟨uv, c2, e2, hc2⟩ := gen2_does rng hd c1 hc1
    dsimp only at e2 ⊢
    rw [e2, ok_bind]
    obtain ⟨x, c3, e3, hc3⟩ := hlf .indirect _ (hl.bounced uv.1 uv.2) c2 hc2
    dsimp only
    rw [e3, ok_bind]
    obtain ⟨k, ek⟩ := hm h.loc
    dsimp only
    rw [ek, ok_bind]
    exact ⟨_, _, rfl, put_ok hc3 _⟩
  | reflective col =>
    intro c hc
    obtain ⟨x, c1, e, hc1⟩ := withRay_sane hlf .direct hl.mirrored c hc
    rw [Mat.shade, e, ok_bind]
    exact ⟨_, _, rfl, hc1⟩
  | reflectFresnel n u ih =>
    intro c hc
    rw [Mat.Total] at hm
    rw [Mat.Tame] at ht
    obtain ⟨x, c1, e1, hc1⟩ := ih hm ht _ (take_ok hc)
    obtain ⟨y, c2, e2, hc2⟩ := hlf .direct _ hl.mirrored c1 hc1
    rw [Mat.shade]
    dsimp only
    rw [e1, ok_bind]
    dsimp only
    rw [e2, ok_bind]
    exact ⟨_, _, rfl, hc2⟩
  | refractive n1 n2 =>
    intro c hc
    rw [Mat.shade]
    unfold shadeRefractive
    obtain ⟨m, i, m1, m2, cosi, sin2t, eg⟩ : ∃ m i m1 m2 cosi sin2t, refractGeom n1 n2 r.dir h.normal = (m, i, m1, m2, cosi, sin2t) :=
      ⟨_, _, _, _, _, _, rfl⟩
    rw [eg]
    dsimp only
    cases hs : (sin2t >. lit 1) with
    | true =>
      rw [if_pos rfl]
      exact withRay_sane hlf .direct hl.mirrored c hc
    | false =>
      obtain ⟨h1, h2⟩ := hl.refracted ht eg hs
      rw [if_neg (by simp)]
      obtain ⟨x, c1, e1, hc1⟩ := hlf .direct _ h1 _ (take_ok hc)
      rw [e1, ok_bind]
      obtain ⟨y, c2, e2, hc2⟩ := hlf .direct _ h2 _ (take_ok hc1)
      dsimp only
      rw [e2, ok_bind]
      exact ⟨_, _, rfl, hc2⟩
  | transparent tex b =>
    intro c hc
    obtain ⟨x, c1, e1, hc1⟩ := hlf .indirect _ hl.through _ (take_ok hc)
    obtain ⟨k, ek⟩ := hm h.loc
    rw [Mat.shade]
    dsimp only
    rw [e1, ok_bind]
    dsimp only
    rw [ek, ok_bind]
    exact ⟨_, _, rfl, hc1⟩
  | twoSided f b ihf ihb =>
    intro c hc
    rw [Mat.Total] at hm
    rw [Mat.Tame] at ht
    rw [Mat.shade]
    split
    · exact ihf hm.1 ht.1 c hc
    · exact ihb hm.2 ht.2 c hc
  | blend a ma b mb iha ihb =>
    intro c hc
    rw [Mat.Total] at hm
    rw [Mat.Tame] at ht
    obtain ⟨x, c1, e1, hc1⟩ := iha hm.1 ht.1 c hc
    obtain ⟨y, c2, e2, hc2⟩ := ihb hm.2 ht.2 c1 hc1
    rw [Mat.shade, e1, ok_bind]
    dsimp only
    rw [e2, ok_bind]
    exact ⟨_, _, rfl, hc2⟩
  | blendMap tex ma mb iha ihb =>
    intro c hc
    rw [Mat.Total] at hm
    rw [Mat.Tame] at ht
    have key : ∀ (k : Flo) {m : CtxM Flo S (Color Flo)}, Does fr d m → Does fr d (whenPos k m) := by
      intro k m hm c hc
      unfold whenPos
      split
      · exact hm c hc
      · exact ⟨_, _, rfl, hc⟩
    obtain ⟨k, ek⟩ := hm.1 h.loc
    obtain ⟨x, c1, e1, hc1⟩ := key k.R (iha hm.2.1 ht.1) c hc
    obtain ⟨y, c2, e2, hc2⟩ := key (lit 1 - k.R) (ihb hm.2.2 ht.2) c1 hc1
    rw [Mat.shade, ek, ok_bind]
    dsimp only
    rw [e1, ok_bind]
    dsimp only
    rw [e2, ok_bind]
    exact ⟨_, _, rfl, hc2⟩
  | func f =>
    intro c hc
    obtain ⟨k, ek⟩ := hm r h
    rw [Mat.shade, ek, ok_bind]
    exact ⟨_, _, rfl, hc⟩

/-- Fog without scattering. -/
theorem media_do {rng : Rng Flo S} {s : Scene Flo} {d : Int} (hd : d ≠ 0) (r : Ray Flo) (t : Flo) (ms : List (Medium Flo))
    (hms : ∀ m ∈ ms, ∃ density ambient height, m = .expFog density ambient height) (col : Color Flo) :
    Does fr d (mediaLoop rng s r t ms col) := by
  induction ms generalizing col with
  | nil => intro c hc; exact ⟨_, _, rfl, hc⟩
  | cons m ms ih =>
    intro c hc
    obtain ⟨density, ambient, height, rfl⟩ := hms m (by simp)
    obtain ⟨x, c1, e1, hc1⟩ : ∃ a c', (Medium.expFog density ambient height).filter rng s r t col c = .ok (a, c') ∧ c'.depth = d ∧ c'.At fr := by
      rw [Medium.filter, isInitial_ok hd hc.1, ok_bind]
      split
      · exact ⟨_, _, rfl, hc⟩
      · dsimp only
        rw [if_neg (by rw [fogInterval_length subLaw_flo]; simp)]
        exact ⟨_, _, rfl, hc⟩
    rw [mediaLoop, e1, ok_bind]
    exact ih (fun m hm => hms m (by simp [hm])) _ _ hc1

/-- Light can be followed through a room. -/
theorem room_does {rng : Rng Flo S} {s : Scene Flo} (hs : Room s) (n : Nat) (d : Int) (h0 : 0 ≤ d) (hn : d + n = s.recursionDepth)
    (f : Field) (r : Ray Flo) (hr : Sane (d : ℝ) r) : Does fr d (s.lightField rng n f r) := by
  have hlast := hs.depth_le
  have hos : ∀ o ∈ s.objects, Polite (fun L => ∃ l ∈ s.lights, LampAt l L) o := fun o ho => (hs.objects o ho).polite
  have hls : ∀ l ∈ s.lights, ∃ L, LampAt l L ∧ ∃ l ∈ s.lights, LampAt l L := by
    intro l hl
    obtain ⟨L, hL⟩ := hs.lamps l hl
    exact ⟨L, hL, l, hl, hL⟩
  have hseen : ∀ f, ∀ o ∈ s.seen f, Polite (fun L => ∃ l ∈ s.lights, LampAt l L) o := by
    intro f o h
    cases f with
    | direct =>
      rcases List.mem_append.1 h with h | h
      · exact hos o h
      · obtain ⟨l, hm, rfl⟩ := List.mem_map.1 h
        obtain ⟨L, hL⟩ := hs.lamps l hm
        exact lamp_polite hL
    | indirect =>
      rcases List.mem_append.1 h with h | h
      · exact hos o h
      · obtain ⟨l, hm, rfl⟩ := List.mem_map.1 h
        obtain ⟨L, hL⟩ := hs.lamps l hm
        exact (lamp_polite hL).black
  unfold Scene.lightField
  induction n generalizing d f r with
  | zero =>
    intro c hc
    unfold Scene.lightFieldFrom
    rw [if_pos (by rw [hc.1]; simpa using hn.symm)]
    exact ⟨_, _, rfl, hc⟩
  | succ n ih =>
    intro c hc
    unfold Scene.lightFieldFrom
    rw [if_neg (by rw [hc.1]; omega)]
    dsimp only
    have hk0 : (0 : ℝ) ≤ d := by exact_mod_cast h0
    have hk1 : (d : ℝ) ≤ 2 ^ 20 := by
      have : d ≤ 2 ^ 20 := by omega
      exact_mod_cast this
    obtain ⟨front, e, m, em, hm, hcase⟩ := intersectLoop_room (hseen f) (frontDefault r) (hr.fair hk1) ⟨.black, rfl, trivial, .inl trivial⟩
    rw [intersectFrontmost, e, ok_bind]
    dsimp only
    have hd : d + 1 ≠ 0 := by omega
    have hlf : ∀ f r, Sane ((d : ℝ) + 1) r → Does fr (d + 1) (s.lightFieldFrom rng (fun _ _ _ => .error .diverge) n f r) := by
      intro f r hr'
      exact ih (d + 1) (by omega) (by push_cast at hn; omega) f r (by push_cast; exact hr')
    have hshade : Does fr (d + 1) (m.shade rng s (s.lightFieldFrom rng (fun _ _ _ => .error .diverge) n) r
        ⟨front.t, front.normal.normalized, front.loc⟩) := by
      rcases hcase with hp | ⟨ht, s1, d1, T, n1, hs1, hd1, -, -, -, hland⟩
      · exact plain_does m hm hp _ _
      · obtain ⟨s2, hs2, ws, hd2⟩ := hr
        cases fis_inj hs1 hs2
        obtain ⟨d2, hd2, ud⟩ := hd2.resolve_left (not_lost hd1)
        cases fis_inj hd1 hd2
        exact landed_does hd hos hls hlf m hm ht ⟨hk0, hk1, hs1, hd1, ws, ud, hland⟩
    obtain ⟨x, c1, e1, hc1⟩ := hshade { c with depth := c.depth + 1 } ⟨by rw [hc.1], hc.2⟩
    simp only [shadeFront, em]
    rw [e1, ok_bind]
    dsimp only
    obtain ⟨y, c2, e2, hc2⟩ := media_do (rng := rng) (s := s) hd r front.t s.media hs.media x c1 hc1
    rw [e2, ok_bind]
    exact ⟨_, _, rfl, by dsimp only; omega, hc2.2⟩

end BR.Bounce
