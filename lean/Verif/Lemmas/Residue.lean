import Verif.Lemmas.Halton
import Mathlib.Data.Nat.ChineseRemainder
import Mathlib.Data.Nat.Count
import Mathlib.RingTheory.Coprime.Lemmas
import Mathlib.Algebra.Ring.Periodic
import Mathlib.Algebra.BigOperators.Fin
import Mathlib.Data.Fintype.BigOperators
import Mathlib.Analysis.SpecificLimits.Basic
import Mathlib.Order.Interval.Finset.Nat
import Mathlib.Data.Int.Interval
import Mathlib.Tactic.Positivity

/-! How often numbers fall into given residue classes for several moduli without common factors. -/

namespace BR

open Filter Topology

theorem count_period (p : ℕ → Prop) [DecidablePred p] (M : ℕ) (hp : Function.Periodic p M) (q r : ℕ) :
    Nat.count p (q * M + r) = q * Nat.count p M + Nat.count p r := by
  induction q with
  | zero => simp
  | succ q ih =>
    have e : (q + 1) * M + r = M + (q * M + r) := by ring
    have e2 : (fun k => p (M + k)) = p := by
      funext k; rw [Nat.add_comm]; exact hp k
    rw [e, Nat.count_add]
    simp only [e2]
    rw [ih]; ring

/-- The share of the numbers with a periodic property. -/
theorem tendsto_count (p : ℕ → Prop) [DecidablePred p] (M : ℕ) (hM : 0 < M) (hp : Function.Periodic p M) :
    Tendsto (fun N : ℕ => (Nat.count p N : ℝ) / N) atTop (𝓝 ((Nat.count p M : ℝ) / M)) := by
  have hM' : (0 : ℝ) < M := by exact_mod_cast hM
  rw [tendsto_iff_dist_tendsto_zero]
  refine squeeze_zero' (.of_forall fun _ => dist_nonneg) (g := fun N : ℕ => (M : ℝ) / N) ?_ (tendsto_const_div_atTop_nhds_zero_nat _)
  filter_upwards [eventually_gt_atTop 0] with N hN
  have hN' : (0 : ℝ) < N := by exact_mod_cast hN
  have e : Nat.count p N = N / M * Nat.count p M + Nat.count p (N % M) := by
    conv_lhs => rw [← Nat.div_add_mod' N M]
    exact count_period p M hp _ _
  have e' : (Nat.count p N : ℝ) = (N / M : ℕ) * Nat.count p M + Nat.count p (N % M) := by exact_mod_cast e
  have eN : (N : ℝ) = (N / M : ℕ) * M + (N % M : ℕ) := by exact_mod_cast (Nat.div_add_mod' N M).symm
  have h1 : (Nat.count p (N % M) : ℝ) ≤ M := by
    exact_mod_cast (Nat.count_le (p := p) (n := N % M)).trans (Nat.mod_lt _ hM).le
  have h2 : ((N % M : ℕ) : ℝ) ≤ M := by exact_mod_cast (Nat.mod_lt N hM).le
  have h3 : (Nat.count p M : ℝ) / M ≤ 1 := by
    rw [div_le_one hM']; exact_mod_cast (Nat.count_le (p := p) (n := M))
  have h4 : 0 ≤ (Nat.count p M : ℝ) / M := by positivity
  have h5 : (0 : ℝ) ≤ (N % M : ℕ) := Nat.cast_nonneg _
  have h6 : (0 : ℝ) ≤ Nat.count p (N % M) := Nat.cast_nonneg _
  have key : (Nat.count p N : ℝ) - N * ((Nat.count p M : ℝ) / M) =
      Nat.count p (N % M) - (N % M : ℕ) * ((Nat.count p M : ℝ) / M) := by
    have : (N : ℝ) * ((Nat.count p M : ℝ) / M) =
        ((N / M : ℕ) * M + (N % M : ℕ)) * ((Nat.count p M : ℝ) / M) := by rw [← eN]
    rw [e', this]; field_simp; ring
  rw [Real.dist_eq, le_div_iff₀ hN']
  have : |(Nat.count p N : ℝ) / N - (Nat.count p M : ℝ) / M| * N = |(Nat.count p N : ℝ) - N * ((Nat.count p M : ℝ) / M)| := by
    nth_rewrite 2 [← abs_of_pos hN']
    rw [← abs_mul]; congr 1; field_simp
  rw [this, key, abs_le]
  constructor
  · nlinarith
  · nlinarith

variable {ι : Type} [Fintype ι]

/-- The numbers with given residues: as many, in a period, as there are ways to choose the residues. -/
theorem count_residues (m : ι → ℕ) (hm : ∀ i, 0 < m i) (hco : Pairwise fun i j => Nat.Coprime (m i) (m j))
    (R : ι → Finset ℕ) (hR : ∀ i, ∀ r ∈ R i, r < m i) :
    Nat.count (fun n => ∀ i, n % m i ∈ R i) (∏ i, m i) = ∏ i, (R i).card := by
  classical
  have hpp : Set.Pairwise (Finset.univ : Finset ι) (Function.onFun Nat.Coprime m) := fun i _ j _ hij => hco hij
  rw [Nat.count_eq_card_filter_range, ← Fintype.card_piFinset]
  refine Finset.card_bij (fun n _ i => n % m i) ?_ ?_ ?_
  · intro n hn
    rw [Fintype.mem_piFinset]
    exact (Finset.mem_filter.1 hn).2
  · intro a ha b hb h
    have ha' := Finset.mem_range.1 (Finset.mem_filter.1 ha).1
    have hb' := Finset.mem_range.1 (Finset.mem_filter.1 hb).1
    have hmod : ∀ i ∈ (Finset.univ : Finset ι), a ≡ b [MOD m i] := fun i _ => congrFun h i
    have : a ≡ b [MOD ∏ i, m i] := by
      rw [Nat.modEq_iff_dvd]
      push_cast
      exact Fintype.prod_dvd_of_coprime (fun i j hij => Nat.isCoprime_iff_coprime.2 (hco hij))
        fun i => Nat.modEq_iff_dvd.1 (hmod i (Finset.mem_univ i))
    exact Nat.ModEq.eq_of_lt_of_lt this ha' hb'
  · intro f hf
    rw [Fintype.mem_piFinset] at hf
    refine ⟨Nat.chineseRemainderOfFinset f m Finset.univ (fun i _ => (hm i).ne') hpp, ?_, ?_⟩
    · rw [Finset.mem_filter, Finset.mem_range]
      refine ⟨Nat.chineseRemainderOfFinset_lt_prod _ _ _ _, fun i => ?_⟩
      have := (Nat.chineseRemainderOfFinset f m Finset.univ (fun i _ => (hm i).ne') hpp).2 i (Finset.mem_univ i)
      rw [this, Nat.mod_eq_of_lt (hR i _ (hf i))]
      exact hf i
    · funext i
      have := (Nat.chineseRemainderOfFinset f m Finset.univ (fun i _ => (hm i).ne') hpp).2 i (Finset.mem_univ i)
      rw [this, Nat.mod_eq_of_lt (hR i _ (hf i))]

theorem tendsto_residues (m : ι → ℕ) (hm : ∀ i, 0 < m i) (hco : Pairwise fun i j => Nat.Coprime (m i) (m j))
    (R : ι → Finset ℕ) (hR : ∀ i, ∀ r ∈ R i, r < m i) :
    Tendsto (fun N : ℕ => (Nat.count (fun n => ∀ i, (n + 1) % m i ∈ R i) N : ℝ) / N) atTop
      (𝓝 (∏ i, ((R i).card : ℝ) / m i)) := by
  classical
  have hM : 0 < ∏ i, m i := Finset.prod_pos fun i _ => hm i
  have hper : Function.Periodic (fun n => ∀ i, n % m i ∈ R i) (∏ i, m i) := by
    intro n
    have : ∀ i, (n + ∏ i, m i) % m i = n % m i := fun i => by
      obtain ⟨k, hk⟩ := Finset.dvd_prod_of_mem m (Finset.mem_univ i)
      rw [hk, Nat.add_mul_mod_self_left]
    simp only [this]
  have hper' : Function.Periodic (fun n => ∀ i, (n + 1) % m i ∈ R i) (∏ i, m i) := by
    intro n
    have := hper (n + 1)
    simp only at this ⊢
    rw [← this]
    congr! 3
    rw [Nat.add_right_comm]
  have hc : Nat.count (fun n => ∀ i, (n + 1) % m i ∈ R i) (∏ i, m i) = ∏ i, (R i).card := by
    rw [← count_residues m hm hco R hR]
    have h1 := Nat.count_succ' (fun n => ∀ i, n % m i ∈ R i) (∏ i, m i)
    have h2 := Nat.count_succ (fun n => ∀ i, n % m i ∈ R i) (∏ i, m i)
    have h3 : (∀ i, (∏ i, m i) % m i ∈ R i) = ∀ i, 0 % m i ∈ R i := by
      have := hper 0
      simpa only [Nat.zero_add] using this
    simp only [h3] at h2
    omega
  have := tendsto_count _ _ hM hper'
  rw [hc] at this
  convert! this using 2
  rw [Finset.prod_div_distrib]
  push_cast
  rfl

theorem revDigits_lt {b : ℕ} (hb : 2 ≤ b) (k n : ℕ) : revDigits b k n < b ^ k := by
  have h1 := (revDigits_spec hb k n).1
  have h2 := (radInv_bounds hb n).2
  have hp : (0 : ℝ) < (b : ℝ) ^ k := by positivity
  have : (revDigits b k n : ℝ) < (b : ℝ) ^ k := by nlinarith
  exact_mod_cast this

theorem revDigits_mod (b k n : ℕ) : revDigits b k (n % b ^ k) = revDigits b k n := by
  induction k generalizing n with
  | zero => rfl
  | succ k ih =>
    rw [revDigits, revDigits, Nat.pow_succ', Nat.mod_mul_right_mod, Nat.mod_mul_right_div_self, ih]

/-- The residues of the numbers whose radical inverse is in `[α/b^k, β/b^k)`. -/
def residues (b k : ℕ) (α β : ℤ) : Finset ℕ :=
  (Finset.range (b ^ k)).filter fun r => α ≤ revDigits b k r ∧ (revDigits b k r : ℤ) < β

theorem residues_lt {b k : ℕ} {α β : ℤ} : ∀ r ∈ residues b k α β, r < b ^ k := fun _ hr =>
  Finset.mem_range.1 (Finset.mem_filter.1 hr).1

theorem mem_residues {b : ℕ} (hb : 2 ≤ b) (k : ℕ) (α β : ℤ) (n : ℕ) :
    n % b ^ k ∈ residues b k α β ↔ (α : ℝ) / b ^ k ≤ radInv b n ∧ radInv b n < (β : ℝ) / b ^ k := by
  have hp : (0 : ℝ) < (b : ℝ) ^ k := by positivity
  obtain ⟨h1, h2⟩ := revDigits_spec hb k n
  rw [residues, Finset.mem_filter, Finset.mem_range, revDigits_mod, div_le_iff₀ hp, lt_div_iff₀ hp, mul_comm (radInv b n)]
  have hm : n % b ^ k < b ^ k := Nat.mod_lt _ (by positivity)
  constructor
  · rintro ⟨-, h3, h4⟩
    have h3' : (α : ℝ) ≤ revDigits b k n := by exact_mod_cast h3
    have h4' : (revDigits b k n : ℝ) + 1 ≤ β := by exact_mod_cast h4
    constructor <;> linarith
  · rintro ⟨h3, h4⟩
    have h3' : (α : ℝ) < revDigits b k n + 1 := by linarith
    have h4' : (revDigits b k n : ℝ) < β := by linarith
    have h3'' : α < revDigits b k n + 1 := by exact_mod_cast h3'
    exact ⟨hm, by omega, by exact_mod_cast h4'⟩

theorem card_residues {b : ℕ} (hb : 2 ≤ b) (k : ℕ) (α β : ℤ) :
    ((residues b k α β).card : ℤ) = max 0 (min β (b ^ k) - max α 0) := by
  have hinj : Set.InjOn (fun r => (revDigits b k r : ℤ)) (residues b k α β) := by
    intro r hr r' hr' h
    have hr1 := residues_lt r hr
    have hr2 := residues_lt r' hr'
    have h' : revDigits b k r = revDigits b k r' := by simpa using h
    obtain ⟨n, -, hu⟩ := revDigits_unique hb k 0 _ (revDigits_lt hb k r)
    rw [hu r ⟨by omega, rfl⟩, hu r' ⟨by omega, h'.symm⟩]
  have himg : (residues b k α β).image (fun r => (revDigits b k r : ℤ)) = Finset.Ico (max α 0) (min β (b ^ k)) := by
    ext c
    rw [Finset.mem_image, Finset.mem_Ico]
    constructor
    · rintro ⟨r, hr, rfl⟩
      obtain ⟨-, h1, h2⟩ := Finset.mem_filter.1 hr
      have h3 : (revDigits b k r : ℤ) < (b : ℤ) ^ k := by exact_mod_cast revDigits_lt hb k r
      refine ⟨max_le h1 (by positivity), lt_min h2 h3⟩
    · rintro ⟨h1, h2⟩
      obtain ⟨h1, h3⟩ := max_le_iff.1 h1
      obtain ⟨h2, h4⟩ := lt_min_iff.1 h2
      obtain ⟨c, rfl⟩ := Int.eq_ofNat_of_zero_le h3
      obtain ⟨r, ⟨hr, hrc⟩, -⟩ := revDigits_unique hb k 0 c (by exact_mod_cast h4)
      refine ⟨r, Finset.mem_filter.2 ⟨Finset.mem_range.2 (by omega), ?_⟩, by rw [hrc]⟩
      rw [hrc]
      exact ⟨h1, h2⟩
  rw [← Finset.card_image_of_injOn hinj, himg, Int.card_Ico]
  omega

end BR
