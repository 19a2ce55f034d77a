import Verif.Stats.Lemmas
import Mathlib.Tactic.Ring
import Mathlib.Tactic.FieldSimp

/-! C50: percentiles. -/

namespace Verif.Stats

open Verif.Stats.Spec

/-! ### Helper lemmas -/

/-- The point `t` hundredths of the way from `a` to `b`. -/
def seg (a b : ℚ) (t : Int) : ℚ := (a * (100 - t : Int) + b * t) / 100

theorem seg_eq (a b : ℚ) (t : Int) : seg a b t = a + (b - a) * t / 100 := by
  unfold seg; push_cast; ring

theorem seg_ge {a b : ℚ} {t : Int} (h : a ≤ b) (ht : 0 ≤ t) : a ≤ seg a b t := by
  rw [seg_eq]
  have h1 : (0 : ℚ) ≤ t := by exact_mod_cast ht
  have h2 : 0 ≤ (b - a) * t / 100 := div_nonneg (mul_nonneg (by linarith) h1) (by norm_num)
  linarith

theorem seg_mono {a b : ℚ} {s t : Int} (h : a ≤ b) (hst : s ≤ t) : seg a b s ≤ seg a b t := by
  rw [seg_eq, seg_eq]
  have h1 : (s : ℚ) ≤ t := by exact_mod_cast hst
  have h2 := mul_le_mul_of_nonneg_left h1 (show 0 ≤ b - a by linarith)
  have : (b - a) * s / 100 ≤ (b - a) * t / 100 := div_le_div_of_nonneg_right h2 (by norm_num)
  linarith

theorem seg_100 (a b : ℚ) : seg a b 100 = b := by rw [seg_eq]; push_cast; ring

theorem seg_le {a b : ℚ} {t : Int} (h : a ≤ b) (ht : t ≤ 100) : seg a b t ≤ b := by
  have := seg_mono h ht; rwa [seg_100] at this

theorem seg_above {a b : ℚ} {t : Int} (h : a ≤ b) (ht : 100 ≤ t) : b ≤ seg a b t := by
  have := seg_mono h ht; rwa [seg_100] at this

theorem seg_beyond {a b : ℚ} {t : Int} (h : a < b) (ht : 100 < t) : b < seg a b t := by
  rw [seg_eq]
  have h1 : (100 : ℚ) < t := by exact_mod_cast ht
  have h2 := mul_lt_mul_of_pos_left h1 (show 0 < b - a by linarith)
  have : (b - a) * 100 / 100 < (b - a) * t / 100 := div_lt_div_of_pos_right h2 (by norm_num)
  have e : (b - a) * 100 / 100 = b - a := by ring
  linarith

/-- Inside the data. -/
theorem cut_inner (l : List ℚ) (i : Nat) (h1 : 1 ≤ i * (l.length + 1) / 100) (h2 : i * (l.length + 1) / 100 ≤ l.length - 1) :
    cut l i = seg (l.getD (i * (l.length + 1) / 100 - 1) 0) (l.getD (i * (l.length + 1) / 100) 0)
      ((i * (l.length + 1) : Nat) - (i * (l.length + 1) / 100 * 100 : Nat)) := by
  simp only [cut, seg]
  rw [if_neg (by omega), if_neg (by omega)]

/-- At and behind the end of the data. -/
theorem cut_outer (l : List ℚ) (i : Nat) (hl : 2 ≤ l.length) (h2 : l.length - 1 < i * (l.length + 1) / 100) :
    cut l i = seg (l.getD (l.length - 2) 0) (l.getD (l.length - 1) 0)
      ((i * (l.length + 1) : Nat) - ((l.length - 1) * 100 : Nat)) := by
  simp only [cut, seg]
  rw [if_neg (by omega), if_pos h2]
  rfl

theorem getD_get {l : List ℚ} {i : Nat} (h : i < l.length) : l.getD i 0 = l[i] := by simp [List.getD, h]

theorem getD_mono {l : List ℚ} (h : l.Pairwise (· ≤ ·)) {i j : Nat} (hij : i ≤ j) (hj : j < l.length) :
    l.getD i 0 ≤ l.getD j 0 := by
  rw [getD_get (by omega), getD_get hj]
  rcases Nat.lt_or_eq_of_le hij with h1 | rfl
  · exact (List.pairwise_iff_getElem.1 h) _ _ _ _ h1
  · exact le_refl _

theorem getD_mem {l : List ℚ} {i : Nat} (h : i < l.length) : l.getD i 0 ∈ l := by
  rw [getD_get h]; exact List.getElem_mem h

theorem within_ge {l : List ℚ} (h : l.Pairwise (· ≤ ·)) {j : Nat} (hj : j ≤ l.length) {x : ℚ}
    (hx : 0 < j → l.getD (j - 1) 0 ≤ x) : j ≤ within l x := by
  unfold within
  have h1 : (l.take j).countP (fun d => decide (d ≤ x)) = (l.take j).length := by
    rw [List.countP_eq_length]
    intro a ha
    obtain ⟨k, hk, rfl⟩ := List.getElem_of_mem ha
    simp only [List.length_take] at hk
    have hk' : k < j ∧ k < l.length := by omega
    have h2 := getD_mono h (i := k) (j := j - 1) (by omega) (by omega)
    rw [getD_get hk'.2] at h2
    have h3 := hx (by omega)
    simp only [List.getElem_take, decide_eq_true_eq]
    linarith
  have h2 : (l.take j).countP (fun d => decide (d ≤ x)) ≤ l.countP (fun d => decide (d ≤ x)) :=
    (List.take_sublist j l).countP_le
  rw [h1, List.length_take] at h2
  omega

/-- All that is used of a cut point of sorted data. -/
structure CutOf (l : List ℚ) (i : Nat) (x : ℚ) : Prop where
  low : l.getD 0 0 ≤ x
  cover : i * l.length ≤ 100 * within l x
  high : i ≤ (100 - i) * l.length → x ≤ l.getD (l.length - 1) 0

theorem cut_of {l : List ℚ} (h : l.Pairwise (· ≤ ·)) (hl : 2 ≤ l.length) {i : Nat} (hi : i = 95 ∨ i = 99) : CutOf l i (cut l i) := by
  have hj1 : 1 ≤ i * (l.length + 1) / 100 := by rcases hi with rfl | rfl <;> omega
  by_cases h2 : i * (l.length + 1) / 100 ≤ l.length - 1
  · rw [cut_inner l i hj1 h2]
    have hs := getD_mono h (i := i * (l.length + 1) / 100 - 1) (j := i * (l.length + 1) / 100) (by omega) (by omega)
    have hge := seg_ge (t := (i * (l.length + 1) : Nat) - (i * (l.length + 1) / 100 * 100 : Nat)) hs (by omega)
    refine ⟨?_, ?_, ?_⟩
    · exact (getD_mono h (by omega) (by omega)).trans hge
    · have := within_ge h (j := i * (l.length + 1) / 100) (by omega) (fun _ => hge)
      rcases hi with rfl | rfl <;> omega
    · intro _
      exact (seg_le hs (by omega)).trans (getD_mono h (by omega) (by omega))
  · have h2 : l.length - 1 < i * (l.length + 1) / 100 := by omega
    rw [cut_outer l i hl h2]
    have hs := getD_mono h (i := l.length - 2) (j := l.length - 1) (by omega) (by omega)
    have ht : (100 : Int) ≤ (i * (l.length + 1) : Nat) - ((l.length - 1) * 100 : Nat) := by
      rcases hi with rfl | rfl <;> omega
    have hge := seg_above hs ht
    refine ⟨?_, ?_, ?_⟩
    · exact (getD_mono h (by omega) (by omega)).trans hge
    · have := within_ge h (j := l.length) (by omega) (fun _ => hge)
      rcases hi with rfl | rfl <;> omega
    · intro hc
      have : ((i * (l.length + 1) : Nat) : Int) - ((l.length - 1) * 100 : Nat) = 100 := by
        rcases hi with rfl | rfl <;> omega
      rw [this, seg_100]

theorem cut_le {l : List ℚ} (h : l.Pairwise (· ≤ ·)) (hl : 2 ≤ l.length) : cut l 95 ≤ cut l 99 := by
  by_cases h95 : 95 * (l.length + 1) / 100 ≤ l.length - 1
  · rw [cut_inner l 95 (by omega) h95]
    have hs := getD_mono h (i := 95 * (l.length + 1) / 100 - 1) (j := 95 * (l.length + 1) / 100) (by omega) (by omega)
    by_cases h99 : 99 * (l.length + 1) / 100 ≤ l.length - 1
    · rw [cut_inner l 99 (by omega) h99]
      by_cases hj : 95 * (l.length + 1) / 100 = 99 * (l.length + 1) / 100
      · rw [← hj]
        exact seg_mono hs (by omega)
      · have hs' := getD_mono h (i := 99 * (l.length + 1) / 100 - 1) (j := 99 * (l.length + 1) / 100) (by omega) (by omega)
        exact ((seg_le hs (by omega)).trans (getD_mono h (by omega) (by omega))).trans (seg_ge hs' (by omega))
    · rw [cut_outer l 99 hl (by omega)]
      have hs' := getD_mono h (i := l.length - 2) (j := l.length - 1) (by omega) (by omega)
      exact ((seg_le hs (by omega)).trans (getD_mono h (by omega) (by omega))).trans (seg_above hs' (by omega))
  · rw [cut_outer l 95 hl (by omega), cut_outer l 99 hl (by omega)]
    exact seg_mono (getD_mono h (by omega) (by omega)) (by omega)

theorem sorted_insertionSort (ds : List ℚ) : (ds.insertionSort (· ≤ ·)).Pairwise (· ≤ ·) :=
  List.pairwise_insertionSort (· ≤ ·) ds

theorem within_perm {l l' : List ℚ} (h : l.Perm l') (x : ℚ) : within l x = within l' x := h.countP_eq _

/-! ### C50 -/

/-- **C50, order.** p95 is never above p99. -/
theorem C50_order (ds : List ℚ) : (percentiles ds).1 ≤ (percentiles ds).2 := by
  unfold percentiles
  split
  · exact cut_le (sorted_insertionSort ds) (by rw [List.length_insertionSort]; assumption)
  · split <;> exact le_refl _

/-- **C50, below.** Neither percentile is below all durations: whatever bounds the durations from below bounds both. -/
theorem C50_low (ds : List ℚ) (hne : ds ≠ []) (x : ℚ) (hx : ∀ d ∈ ds, x ≤ d) :
    x ≤ (percentiles ds).1 ∧ x ≤ (percentiles ds).2 := by
  unfold percentiles
  split
  · next h =>
    have hlen : (ds.insertionSort (· ≤ ·)).length = ds.length := List.length_insertionSort _ _
    have h0 : x ≤ (ds.insertionSort (· ≤ ·)).getD 0 0 :=
      hx _ ((List.mem_insertionSort (· ≤ ·)).1 (getD_mem (by omega)))
    exact ⟨h0.trans (cut_of (sorted_insertionSort ds) (by omega) (.inl rfl)).low,
      h0.trans (cut_of (sorted_insertionSort ds) (by omega) (.inr rfl)).low⟩
  · next h =>
    match ds, hne, h with
    | [d], _, _ => exact ⟨hx d (.head _), hx d (.head _)⟩
    | _ :: _ :: _, _, h => simp at h

/-- **C50, meaning.** At least 95% of the calls took no longer than p95, and at least 99% no longer than p99. -/
theorem C50_cover (ds : List ℚ) :
    95 * ds.length ≤ 100 * within ds (percentiles ds).1 ∧ 99 * ds.length ≤ 100 * within ds (percentiles ds).2 := by
  unfold percentiles
  split
  · next h =>
    have hlen : (ds.insertionSort (· ≤ ·)).length = ds.length := List.length_insertionSort _ _
    have hp := within_perm (List.perm_insertionSort (· ≤ ·) ds)
    have h95 := (cut_of (sorted_insertionSort ds) (by omega) (.inl rfl)).cover
    have h99 := (cut_of (sorted_insertionSort ds) (by omega) (.inr rfl)).cover
    rw [hlen, hp] at h95 h99
    exact ⟨h95, h99⟩
  · next h =>
    match ds, h with
    | [], _ => simp
    | [d], _ => simp [within]
    | _ :: _ :: _, h => simp at h

/-- **C50, above.** With at least 19 measured calls p95 is not above the longest duration, with at least 99 neither is p99, and
with one call both are its duration. Missing: fewer calls. -/
theorem C50_high_partial (ds : List ℚ) (x : ℚ) (hx : ∀ d ∈ ds, d ≤ x) :
    (19 ≤ ds.length ∨ ds.length = 1 → (percentiles ds).1 ≤ x) ∧ (99 ≤ ds.length ∨ ds.length = 1 → (percentiles ds).2 ≤ x) := by
  unfold percentiles
  split
  · next h =>
    have hlen : (ds.insertionSort (· ≤ ·)).length = ds.length := List.length_insertionSort _ _
    have h0 : (ds.insertionSort (· ≤ ·)).getD ((ds.insertionSort (· ≤ ·)).length - 1) 0 ≤ x :=
      hx _ ((List.mem_insertionSort (· ≤ ·)).1 (getD_mem (by omega)))
    exact ⟨fun h1 => ((cut_of (sorted_insertionSort ds) (by omega) (.inl rfl)).high (by omega)).trans h0,
      fun h1 => ((cut_of (sorted_insertionSort ds) (by omega) (.inr rfl)).high (by omega)).trans h0⟩
  · next h =>
    match ds, h with
    | [], _ => simp
    | [d], _ => exact ⟨fun _ => hx d (.head _), fun _ => hx d (.head _)⟩
    | _ :: _ :: _, h => simp at h

example : (percentiles [3, 1, 2]).1 ≤ (percentiles [3, 1, 2]).2 ∧ within [3, 1, 2] (percentiles [3, 1, 2]).1 = 3 := by
  decide +kernel

/-- **C50, nothing measured.** The percentiles are -1 exactly if nothing was measured; durations are not negative. -/
theorem C50_none (ds : List ℚ) (hd : ∀ d ∈ ds, 0 ≤ d) :
    ((percentiles ds).1 = -1 ↔ ds = []) ∧ ((percentiles ds).2 = -1 ↔ ds = []) := by
  by_cases h : ds = []
  · subst h; simp [percentiles]
  · have := C50_low ds h 0 hd
    constructor
    · constructor
      · intro e; rw [e] at this; norm_num at this
      · intro e; exact absurd e h
    · constructor
      · intro e; rw [e] at this; norm_num at this
      · intro e; exact absurd e h

/-- With 2 to 98 calls of which one was the longest, p99 is above every measured duration. -/
theorem C50_high_refuted (m : ℚ) (rest ds : List ℚ) (hp : ds.Perm (m :: rest)) (hm : ∀ d ∈ rest, d < m) (hne : rest ≠ [])
    (hlen : ds.length < 99) : ∀ d ∈ ds, d < (percentiles ds).2 := by
  have hl2 : 2 ≤ ds.length := by
    rw [hp.length_eq]; cases rest with
    | nil => exact absurd rfl hne
    | cons a r => simp
  have hlen' : (ds.insertionSort (· ≤ ·)).length = ds.length := List.length_insertionSort _ _
  have hs := sorted_insertionSort ds
  have hpl : (ds.insertionSort (· ≤ ·)).Perm (m :: rest) := (List.perm_insertionSort (· ≤ ·) ds).trans hp
  generalize hl : ds.insertionSort (· ≤ ·) = l at hlen' hs hpl
  have hle : ∀ d ∈ m :: rest, d ≤ m := by
    intro d hd; rcases List.mem_cons.1 hd with rfl | hd
    · exact le_refl _
    · exact le_of_lt (hm d hd)
  -- the last of the sorted durations is `m`
  have hlast : l.getD (l.length - 1) 0 = m := by
    apply le_antisymm
    · exact hle _ (hpl.mem_iff.1 (getD_mem (by omega)))
    · obtain ⟨k, hk, hk'⟩ := List.getElem_of_mem (hpl.mem_iff.2 (List.mem_cons_self (a := m)))
      have := getD_mono hs (i := k) (j := l.length - 1) (by omega) (by omega)
      rwa [getD_get hk, hk'] at this
  have hsplit : l = l.take (l.length - 1) ++ [m] := by
    conv_lhs => rw [← List.take_append_drop (l.length - 1) l]
    congr 1
    rw [List.drop_eq_getElem_cons (by omega), List.drop_of_length_le (by omega)]
    rw [getD_get (by omega)] at hlast
    rw [hlast]
  have hrest : (l.take (l.length - 1)).Perm rest := by
    have h1 : (l.take (l.length - 1) ++ [m]).Perm (m :: rest) := by rw [← hsplit]; exact hpl
    exact (List.perm_cons m).1 ((List.perm_append_singleton m _).symm.trans h1)
  have hbefore : l.getD (l.length - 2) 0 < m := by
    apply hm
    apply hrest.mem_iff.1
    rw [getD_get (by omega)]
    rw [List.mem_iff_getElem]
    exact ⟨l.length - 2, by simp; omega, by simp⟩
  have hcut : m < (percentiles ds).2 := by
    unfold percentiles
    rw [if_pos hl2]
    simp only [hl]
    rw [cut_outer l 99 (by omega) (by omega), hlast]
    exact seg_beyond hbefore (by omega)
  intro d hd
  exact lt_of_le_of_lt (hle d (hp.mem_iff.1 hd)) hcut

example : (percentiles [1, 3]).2 = 494 / 100 ∧ (percentiles [1, 3]).1 = 47 / 10 := by decide +kernel

end Verif.Stats
