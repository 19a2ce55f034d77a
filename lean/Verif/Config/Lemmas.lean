import Verif.Config.Spec
import Verif.Py.DictLemmas

namespace Verif.Config

open Verif.Py Verif.Config.Spec

theorem unset_iff (env : Env) (n : Str) : Unset env n ↔ nonEmpty (env.get? n) = none := by
  unfold Unset nonEmpty
  rcases h : Dict.get? env n with _ | (_ | ⟨c, cs⟩) <;> simp

theorem set_iff (env : Env) (n v : Str) : nonEmpty (env.get? n) = some v ↔ env.get? n = some v ∧ v ≠ [] := by
  unfold nonEmpty
  rcases h : Dict.get? env n with _ | (_ | ⟨c, cs⟩) <;> simp
  rintro rfl; simp

theorem names_eq (self : Self) (p : Str) : names self.app self.inst p = [instName self p, appName self p, globalName p] := by
  simp [names, instName, appName, globalName, envPrefix, Str.upper]

theorem first_get (env : Env) (self : Self) (p : Str) (d : Val) {ns : List Str} {d' : Val} (h : First env ns d' d) :
    First env (names self.app self.inst p ++ ns) d' (getEcoEnv env self p d) := by
  rw [names_eq]
  unfold getEcoEnv
  cases h1 : nonEmpty (env.get? (instName self p)) with
  | some v => exact .here _ _ _ _ ((set_iff _ _ _).1 h1).1 ((set_iff _ _ _).1 h1).2
  | none =>
    refine .later _ _ _ _ ((unset_iff _ _).2 h1) ?_
    simp only [Bool.false_eq_true, if_false]
    cases h2 : nonEmpty (env.get? (appName self p)) with
    | some v => exact .here _ _ _ _ ((set_iff _ _ _).1 h2).1 ((set_iff _ _ _).1 h2).2
    | none =>
      refine .later _ _ _ _ ((unset_iff _ _).2 h2) ?_
      cases h3 : nonEmpty (env.get? (globalName p)) with
      | some v => exact .here _ _ _ _ ((set_iff _ _ _).1 h3).1 ((set_iff _ _ _).1 h3).2
      | none => exact .later _ _ _ _ ((unset_iff _ _).2 h3) h

/-- The first variable set is unique. -/
theorem first_unique {env : Env} {ns : List Str} {d v w : Val} (hv : First env ns d v) (hw : First env ns d w) : v = w := by
  induction hv with
  | none d => cases hw; rfl
  | here n ns d v h hne =>
    cases hw with
    | here _ _ _ _ h' _ => rw [h] at h'; simp at h'; rw [h']
    | later _ _ _ _ hu => rcases hu with hu | hu <;> rw [h] at hu <;> simp at hu; exact absurd hu hne
  | later n ns d v hu _ ih =>
    cases hw with
    | here _ _ _ _ h' hne => rcases hu with hu | hu <;> rw [h'] at hu <;> simp at hu; exact absurd hu hne
    | later _ _ _ _ _ hw => exact ih hw

theorem isPrefixOf_append (p t : Str) : p.isPrefixOf (p ++ t) = true := by
  rw [List.isPrefixOf_iff_prefix]; exact List.prefix_append _ _

/-- One loop of `get_app_instance_extra`. -/
theorem extraLoop_get (keep : Str → Bool) (p : Str) (hp : p ≠ []) (hk : ∀ k, keep k = true → p <+: k) (name : Str) :
    ∀ (env acc : Dict Str Str), (Dict.keys env).Nodup →
      (extraLoop keep p env acc).get? name =
        if keep (p ++ name) = true then (env.get? (p ++ name)).or (acc.get? name) else acc.get? name
  | [], acc, _ => by simp [extraLoop, Dict.get?]
  | (k, v) :: rest, acc, hn => by
    simp only [Dict.keys, List.map_cons, List.nodup_cons] at hn
    rw [extraLoop, extraLoop_get keep p hp hk name rest _ hn.2]
    have hrest : k = p ++ name → Dict.get? rest (p ++ name) = none := by
      rintro rfl; exact (Dict.get?_eq_none_iff _ _).2 hn.1
    by_cases hkk : keep k = true
    · obtain ⟨t, ht⟩ := hk k hkk
      have hr : Str.replaceFirst p k = t := by rw [← ht]; exact Str.replaceFirst_prefix p t hp
      rw [if_pos hkk, hr]
      by_cases htn : t = name
      · subst htn
        have hk' : keep (p ++ t) = true := by rw [ht]; exact hkk
        rw [if_pos hk', if_pos hk', hrest ht.symm]
        simp [Dict.get?_set, Dict.get?, ht]
      · have hne : k ≠ p ++ name := by rw [← ht]; simpa using htn
        simp [Dict.get?_set, htn, Dict.get?, hne]
    · rw [if_neg hkk]
      by_cases hname : keep (p ++ name) = true
      · have hne : k ≠ p ++ name := by rintro rfl; exact hkk hname
        simp [hname, Dict.get?, hne]
      · simp [hname]

theorem machinePrefix_eq : machinePrefix = "ECOENV_EXTRA_".toList := by
  decide

/-- What `get_app_instance_extra` shows for a name. -/
theorem extra_get (env : Env) (hn : (Dict.keys env).Nodup) (self : Self) (name : Str) :
    (extra env self).get? name =
      (env.get? (instPrefix self ++ name)).or
        ((if (Str.upper self.inst ++ ['_']).isPrefixOf name then none else env.get? (appPrefix self ++ name)).or
          (if (Str.upper self.app ++ ['_']).isPrefixOf name then none else env.get? (machinePrefix ++ name))) := by
  have e1 : ∀ x : Str, (appPrefix self).isPrefixOf (machinePrefix ++ x) = (Str.upper self.app ++ ['_']).isPrefixOf x := by
    intro x
    rw [Bool.eq_iff_iff, List.isPrefixOf_iff_prefix, List.isPrefixOf_iff_prefix, appPrefix, List.append_assoc,
      List.prefix_append_right_inj]
  have e2 : ∀ x : Str, (instPrefix self).isPrefixOf (appPrefix self ++ x) = (Str.upper self.inst ++ ['_']).isPrefixOf x := by
    intro x
    rw [Bool.eq_iff_iff, List.isPrefixOf_iff_prefix, List.isPrefixOf_iff_prefix, instPrefix, List.append_assoc,
      List.prefix_append_right_inj]
  have hm : machinePrefix ≠ [] := by simp [machinePrefix_eq]
  have ha : appPrefix self ≠ [] := by simp [appPrefix]
  have hi : instPrefix self ≠ [] := by simp [instPrefix]
  unfold extra
  simp only
  rw [extraLoop_get _ _ hi (by intro k h; exact List.isPrefixOf_iff_prefix.1 h) _ _ _ hn,
    extraLoop_get _ _ ha (by intro k h; simp at h; exact h.1) _ _ _ hn,
    extraLoop_get _ _ hm (by intro k h; simp at h; exact h.1) _ _ _ hn]
  simp only [isPrefixOf_append, Bool.true_and, if_true, e1, e2, Dict.get?]
  cases (Str.upper self.inst ++ ['_']).isPrefixOf name <;> cases (Str.upper self.app ++ ['_']).isPrefixOf name <;> simp

theorem underscore : "_".toList = ['_'] := rfl

theorem extraInst_eq (self : Self) (name : Str) : extraInst self.app self.inst name = instPrefix self ++ name := by
  unfold extraInst extraApp extraMachine instPrefix appPrefix Str.upper
  rw [machinePrefix_eq, underscore]
  simp only [List.append_assoc]

theorem extraApp_eq (self : Self) (name : Str) : extraApp self.app name = appPrefix self ++ name := by
  unfold extraApp extraMachine appPrefix Str.upper
  rw [machinePrefix_eq, underscore]
  simp only [List.append_assoc]

theorem extraMachine_eq (name : Str) : extraMachine name = machinePrefix ++ name := by
  unfold extraMachine
  rw [machinePrefix_eq]

/-- Two prefixes of one text are comparable. -/
theorem comparable {α : Type _} {a b x y : List α} (h : a ++ x = b ++ y) : a <+: b ∨ b <+: a :=
  List.prefix_or_prefix_of_prefix (l₃ := a ++ x) (List.prefix_append _ _) (h ▸ List.prefix_append _ _)

/-- Splitting at the last occurrence of a character is unique. -/
theorem split_last {c : Char} {a b x y : Str} (hx : c ∉ x) (hy : c ∉ y) (h : a ++ c :: x = b ++ c :: y) : a = b ∧ x = y := by
  have hr := congrArg List.reverse h
  simp only [List.reverse_append, List.reverse_cons, List.append_assoc, List.singleton_append] at hr
  have hx' : c ∉ x.reverse := by simpa using hx
  have hy' : c ∉ y.reverse := by simpa using hy
  have key : ∀ (u v s t : Str), c ∉ u → c ∉ v → u ++ c :: s = v ++ c :: t → u = v ∧ s = t := by
    intro u
    induction u with
    | nil =>
      intro v s t _ hv h
      cases v with
      | nil => simpa using h
      | cons z zs => simp at h hv; exact absurd h.1 hv.1
    | cons z zs ih =>
      intro v s t hu hv h
      cases v with
      | nil => simp at h hu; exact absurd h.1.symm hu.1
      | cons z' zs' =>
        simp at h hu hv
        obtain ⟨h1, h2⟩ := ih zs' s t hu.2 hv.2 h.2
        exact ⟨by rw [h.1, h1], h2⟩
  obtain ⟨h1, h2⟩ := key _ _ _ _ hx' hy' hr
  exact ⟨List.reverse_inj.1 h2, List.reverse_inj.1 h1⟩

/-- Splitting at the first occurrence of a character is unique. -/
theorem split_first {c : Char} {u v s t : Str} (hu : c ∉ u) (hv : c ∉ v) (h : u ++ c :: s = v ++ c :: t) : u = v ∧ s = t := by
  have h' : s.reverse ++ c :: u.reverse = t.reverse ++ c :: v.reverse := by
    have := congrArg List.reverse h
    simpa using this
  obtain ⟨h1, h2⟩ := split_last (by simpa using hu) (by simpa using hv) h'
  exact ⟨List.reverse_inj.1 h2, List.reverse_inj.1 h1⟩

end Verif.Config
