import Verif.Py.Basic

/-! Helper lemmas about `Dict`. -/

namespace Verif.Py.Dict

variable {K V : Type _} [DecidableEq K]

theorem get?_set (d : Dict K V) (k k' : K) (v : V) :
    get? (set d k v) k' = if k = k' then some v else get? d k' := by
  induction d with
  | nil => by_cases h : k = k' <;> simp [set, get?, h]
  | cons a d ih =>
    obtain ⟨a, w⟩ := a
    by_cases h : a = k
    · subst h; by_cases h2 : a = k' <;> simp [set, get?, h2]
    · by_cases h2 : a = k'
      · subst h2; simp [set, get?, h]; intro h3; exact absurd h3.symm h
      · simp [set, get?, h, h2, ih]

theorem get?_eq_none_iff (d : Dict K V) (k : K) : get? d k = none ↔ k ∉ keys d := by
  induction d with
  | nil => simp [get?, keys]
  | cons a d ih =>
    obtain ⟨a, w⟩ := a
    by_cases h : a = k
    · subst h; simp [get?, keys]
    · simp only [keys] at ih
      simp [get?, keys, h, ih, Ne.symm h]

theorem has_iff (d : Dict K V) (k : K) : has d k = true ↔ k ∈ keys d := by
  have := get?_eq_none_iff d k
  unfold has
  cases h : get? d k with
  | none => simp [this.mp h]
  | some v =>
    have : k ∈ keys d := by
      apply Classical.byContradiction
      intro hn
      rw [this.mpr hn] at h; cases h
    simp [this]

theorem has_false_iff (d : Dict K V) (k : K) : has d k = false ↔ k ∉ keys d := by
  rw [← has_iff]; simp

theorem set_of_not_mem (d : Dict K V) (k : K) (v : V) (h : k ∉ keys d) :
    set d k v = d ++ [(k, v)] := by
  induction d with
  | nil => rfl
  | cons a d ih =>
    obtain ⟨a, w⟩ := a
    simp [keys] at h
    have h1 : a ≠ k := fun e => h.1 e.symm
    simp only [set, if_neg h1, List.cons_append]
    rw [ih (by simpa [keys] using h.2)]

theorem keys_set_of_mem (d : Dict K V) (k : K) (v : V) (h : k ∈ keys d) :
    keys (set d k v) = keys d := by
  induction d with
  | nil => simp [keys] at h
  | cons a d ih =>
    obtain ⟨a, w⟩ := a
    by_cases h1 : a = k
    · simp [set, h1, keys]
    · have : k ∈ keys d := by simp [keys] at h ⊢; rcases h with h | h; exact absurd h.symm h1; exact h
      have := ih this
      simp [set, h1, keys] at this ⊢; exact this

theorem keys_set (d : Dict K V) (k : K) (v : V) :
    keys (set d k v) = if k ∈ keys d then keys d else keys d ++ [k] := by
  by_cases h : k ∈ keys d
  · simp [keys_set_of_mem d k v h, h]
  · rw [set_of_not_mem d k v h]; simp [keys] at h ⊢; simp [h]

theorem erase_of_not_mem (d : Dict K V) (k : K) (h : k ∉ keys d) : erase d k = d := by
  induction d with
  | nil => rfl
  | cons a d ih =>
    obtain ⟨a, w⟩ := a
    simp [keys] at h
    have h1 : a ≠ k := fun e => h.1 e.symm
    simp only [erase, if_neg h1]
    rw [ih (by simpa [keys] using h.2)]

theorem erase_eq_filter (d : Dict K V) (k : K) (h : (keys d).Nodup) :
    erase d k = d.filter (fun e => e.1 ≠ k) := by
  induction d with
  | nil => rfl
  | cons a d ih =>
    obtain ⟨a, w⟩ := a
    simp only [keys, List.map_cons, List.nodup_cons] at h
    by_cases h1 : a = k
    · subst h1
      simp only [erase, if_true, List.filter_cons, ne_eq, not_true_eq_false, decide_false]
      symm
      simp only [Bool.false_eq_true, if_false]
      apply List.filter_eq_self.mpr
      intro x hx
      simp
      intro e
      exact h.1 (List.mem_map.mpr ⟨x, hx, e⟩)
    · simp only [erase, if_neg h1]
      rw [ih h.2]
      simp [h1]

theorem get?_erase (d : Dict K V) (k k' : K) (h : (keys d).Nodup) :
    get? (erase d k) k' = if k = k' then none else get? d k' := by
  induction d with
  | nil => simp [erase, get?]
  | cons a d ih =>
    obtain ⟨a, w⟩ := a
    simp only [keys, List.map_cons, List.nodup_cons] at h
    by_cases h1 : a = k
    · subst h1
      simp only [erase, if_true]
      by_cases h2 : a = k'
      · subst h2; simp; exact (get?_eq_none_iff d a).mpr h.1
      · simp [get?, h2]
    · by_cases h2 : a = k'
      · subst h2; simp [erase, get?, h1, Ne.symm h1]
      · simp [erase, get?, h1, h2, ih h.2]

theorem mem_keys_erase (d : Dict K V) (k k' : K) (h : (keys d).Nodup) :
    k' ∈ keys (erase d k) ↔ k' ∈ keys d ∧ k' ≠ k := by
  rw [erase_eq_filter d k h]
  simp only [keys, List.mem_map, List.mem_filter]
  constructor
  · rintro ⟨x, ⟨hx, hne⟩, rfl⟩
    exact ⟨⟨x, hx, rfl⟩, by simpa using hne⟩
  · rintro ⟨⟨x, hx, rfl⟩, hne⟩
    exact ⟨x, ⟨hx, by simpa using hne⟩, rfl⟩

theorem nodup_keys_erase (d : Dict K V) (k : K) (h : (keys d).Nodup) :
    (keys (erase d k)).Nodup := by
  rw [erase_eq_filter d k h]
  exact List.Nodup.sublist (List.Sublist.map _ List.filter_sublist) h

theorem nodup_keys_set (d : Dict K V) (k : K) (v : V) (h : (keys d).Nodup) :
    (keys (set d k v)).Nodup := by
  rw [keys_set]
  split
  · exact h
  · rename_i hn
    rw [List.nodup_append]
    refine ⟨h, by simp, ?_⟩
    intro a ha b hb
    simp at hb
    subst hb
    intro e; subst e; exact hn ha

theorem get?_mem (d : Dict K V) (k : K) (v : V) (h : get? d k = some v) : (k, v) ∈ d := by
  induction d with
  | nil => simp [get?] at h
  | cons a d ih =>
    obtain ⟨a, w⟩ := a
    by_cases h1 : a = k
    · subst h1; simp [get?] at h; simp [h]
    · simp [get?, h1] at h; exact List.mem_cons_of_mem _ (ih h)

theorem get?_of_mem (d : Dict K V) (k : K) (v : V) (hn : (keys d).Nodup) (h : (k, v) ∈ d) :
    get? d k = some v := by
  induction d with
  | nil => cases h
  | cons a d ih =>
    obtain ⟨a, w⟩ := a
    simp only [keys, List.map_cons, List.nodup_cons] at hn
    rcases List.mem_cons.mp h with h | h
    · cases h; simp [get?]
    · have : a ≠ k := by
        intro e; subst e; exact hn.1 (List.mem_map.mpr ⟨_, h, rfl⟩)
      simp [get?, this]; exact ih hn.2 h

theorem length_erase (d : Dict K V) (k : K) (h : k ∈ keys d) :
    (erase d k).length + 1 = d.length := by
  induction d with
  | nil => simp [keys] at h
  | cons a d ih =>
    obtain ⟨a, w⟩ := a
    by_cases h1 : a = k
    · simp [erase, h1]
    · have : k ∈ keys d := by simp [keys] at h ⊢; rcases h with h | h; exact absurd h.symm h1; exact h
      simp [erase, h1, ih this]

theorem length_set (d : Dict K V) (k : K) (v : V) :
    (set d k v).length = if k ∈ keys d then d.length else d.length + 1 := by
  have : (keys (set d k v)).length = (set d k v).length := by simp [keys]
  rw [← this, keys_set]
  split <;> simp [keys]

end Verif.Py.Dict
