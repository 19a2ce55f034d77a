import Verif.Scrape.Spec
import Verif.Config.Names
import Verif.Prom.Props

/-! # Helper lemmas about discovery -/

namespace Verif.Scrape

open Verif.Py Verif.Config

theorem split_nonempty (c : Char) (s : Str) : Str.split c s ≠ [] := by
  cases s with
  | nil => simp [Str.split]
  | cons z zs => rw [Str.split]; split <;> [simp; (split <;> simp)]

theorem split_one {c : Char} {s b : Str} (h : Str.split c s = [b]) : s = b ∧ c ∉ b := by
  induction s generalizing b with
  | nil => simp [Str.split] at h; subst h; simp
  | cons y ys ih =>
    by_cases hy : y = c
    · subst hy
      rw [Str.split, if_pos rfl] at h
      simp only [List.cons.injEq] at h
      exact absurd h.2 (split_nonempty _ _)
    · rw [Str.split, if_neg hy] at h
      cases hs : Str.split c ys with
      | nil => exact absurd hs (split_nonempty _ _)
      | cons w ws =>
        rw [hs] at h
        simp only [List.cons.injEq] at h
        obtain ⟨rfl, rfl⟩ := h
        obtain ⟨rfl, h2⟩ := ih hs
        exact ⟨rfl, by simp only [List.mem_cons, not_or]; exact ⟨fun e => hy e.symm, h2⟩⟩

theorem split_two {c : Char} : ∀ {s a b : Str}, Str.split c s = [a, b] → s = a ++ c :: b ∧ c ∉ a ∧ c ∉ b
  | [], a, b, h => by simp [Str.split] at h
  | x :: xs, a, b, h => by
    by_cases hx : x = c
    · subst hx
      rw [Str.split, if_pos rfl] at h
      simp only [List.cons.injEq] at h
      obtain ⟨rfl, h⟩ := h
      obtain ⟨rfl, h2⟩ := split_one h
      exact ⟨rfl, by simp, h2⟩
    · rw [Str.split, if_neg hx] at h
      cases hs : Str.split c xs with
      | nil => exact absurd hs (split_nonempty _ _)
      | cons w ws =>
        rw [hs] at h
        simp only [List.cons.injEq] at h
        obtain ⟨rfl, rfl⟩ := h
        obtain ⟨rfl, h1, h2⟩ := split_two hs
        exact ⟨rfl, by simp only [List.mem_cons, not_or]; exact ⟨fun e => hx e.symm, h1⟩, h2⟩

theorem rsplit_last (c : Char) (a b : Str) (h : c ∉ b) : rsplit c (a ++ c :: b) = some (a, b) := by
  unfold rsplit
  rw [if_pos (by simp), afterLast_append c a b h]
  congr 2
  unfold Str.uptoLast
  have : (a ++ c :: b).reverse = b.reverse ++ (c :: a.reverse) := by simp
  rw [this, List.dropWhile_append_of_pos (by
    intro x hx
    simp only [List.mem_reverse] at hx
    simpa using fun e : x = c => h (e ▸ hx))]
  rw [List.dropWhile_cons_of_neg (by simp)]
  simp

theorem last_of {c : Char} {t : Str} (h : c ∈ t) : ∃ l r, t = l ++ c :: r ∧ c ∉ r := by
  induction t with
  | nil => simp at h
  | cons y t ih =>
    by_cases ht : c ∈ t
    · obtain ⟨l, r, rfl, h'⟩ := ih ht
      exact ⟨y :: l, r, rfl, h'⟩
    · rcases List.mem_cons.1 h with rfl | h
      · exact ⟨[], t, rfl, ht⟩
      · exact absurd h ht

theorem rsplit_some {c : Char} {s a b : Str} (h : rsplit c s = some (a, b)) : s = a ++ c :: b := by
  by_cases hc : c ∈ s
  · obtain ⟨l, r, rfl, hr⟩ := last_of hc
    rw [rsplit_last c l r hr] at h
    cases h; rfl
  · simp [rsplit, hc] at h

theorem upper_free (s : Str) (h : '_' ∉ s) : '_' ∉ Str.upper s := by
  intro hm
  unfold Str.upper at hm
  obtain ⟨c, hc, he⟩ := List.mem_map.1 hm
  have : c = '_' := by
    unfold Char.toUpper at he
    split at he
    · next hr =>
      exfalso
      have := congrArg Char.val he
      simp only at this
      have h1 : c.val.toNat = c.val.toNat := rfl
      have h2 := congrArg UInt32.toNat this
      rw [UInt32.toNat_add] at h2
      simp only [UInt32.le_iff_toNat_le] at hr
      have e1 : ('a' : Char).val.toNat = 97 := rfl
      have e2 : ('z' : Char).val.toNat = 122 := rfl
      have e3 : (('A' : Char).val - ('a' : Char).val).toNat = 4294967264 := rfl
      have e4 : ('_' : Char).val.toNat = 95 := rfl
      rw [e1, e2] at hr
      rw [e3, e4] at h2
      omega
    · exact he
  exact h (this ▸ hc)

theorem lower_upper (s : Str) (h : ∀ c ∈ s, c.isUpper = false) : Str.lower (Str.upper s) = s := by
  unfold Str.lower Str.upper
  rw [List.map_map]
  conv_rhs => rw [← List.map_id s]
  apply List.map_congr_left
  intro c hc
  have hu := h c hc
  simp only [Function.comp, id]
  have e1 : ('a' : Char).val.toNat = 97 := rfl
  have e2 : ('z' : Char).val.toNat = 122 := rfl
  have e3 : (('A' : Char).val - ('a' : Char).val).toNat = 4294967264 := rfl
  have e4 : (('a' : Char).val - ('A' : Char).val).toNat = 32 := rfl
  have e5 : ('A' : Char).val.toNat = 65 := rfl
  have e6 : ('Z' : Char).val.toNat = 90 := rfl
  by_cases hr : c.val ≥ 'a'.val ∧ c.val ≤ 'z'.val
  · have h1 : c.toUpper.val = c.val + ('A'.val - 'a'.val) := by
      unfold Char.toUpper; rw [dif_pos hr]
    have h2 : c.toUpper.val.toNat = c.val.toNat - 32 := by
      rw [h1, UInt32.toNat_add, e3]
      simp only [ge_iff_le, UInt32.le_iff_toNat_le, e1, e2] at hr
      omega
    have h3 : c.toUpper.val ≥ 'A'.val ∧ c.toUpper.val ≤ 'Z'.val := by
      simp only [ge_iff_le, UInt32.le_iff_toNat_le, e1, e2] at hr
      simp only [ge_iff_le, UInt32.le_iff_toNat_le, h2, e5, e6]
      omega
    apply Char.ext
    have h4 : c.toUpper.toLower.val = c.toUpper.val + ('a'.val - 'A'.val) := by
      conv_lhs => unfold Char.toLower
      rw [dif_pos h3]
    apply UInt32.toNat_inj.1
    rw [h4, UInt32.toNat_add, h2, e4]
    simp only [ge_iff_le, UInt32.le_iff_toNat_le, e1, e2] at hr
    omega
  · have h1 : c.toUpper = c := by unfold Char.toUpper; rw [dif_neg hr]
    rw [h1]
    exact toLower_of_not_upper hu

theorem text_of {env : Env} {self : Self} {setting : Str} {h : Str} {p : Int} (hp : hostPortOf env self setting = .ok (some (h, p))) :
    ∃ port, env.get? (instName self setting) = some (h ++ ':' :: port) ∧ ':' ∉ port ∧ Str.toInt port = .ok p := by
  unfold hostPortOf getInstanceEnv getEcoEnv at hp
  cases hn : nonEmpty (env.get? (instName self setting)) with
  | none => rw [hn] at hp; simp at hp
  | some v =>
    rw [hn] at hp
    simp only at hp
    obtain ⟨hv, -⟩ := (set_iff env _ v).1 hn
    unfold parseHostPort at hp
    split at hp
    · next a b hs =>
      obtain ⟨rfl, h1, h2⟩ := split_two hs
      split at hp
      · simp at hp
      · split at hp
        · simp at hp
        · cases hi : Str.toInt b with
          | error e => rw [hi] at hp; simp at hp
          | ok q =>
            rw [hi] at hp
            simp only [Except.ok.injEq, Option.some.injEq, Prod.mk.injEq] at hp
            obtain ⟨rfl, rfl⟩ := hp
            exact ⟨b, hv, h2, hi⟩
    · simp at hp

theorem serviceOf_tcp (isLocal : Str → Bool) (raw value : Str) :
    serviceOf isLocal ("ECOENV_TCP_".toList ++ raw, value) = tcpUdp isLocal .tcp raw value := by
  rw [show "ECOENV_TCP_".toList ++ raw = 'E' :: 'C' :: 'O' :: 'E' :: 'N' :: 'V' :: '_' :: 'T' :: 'C' :: 'P' :: '_' :: raw from rfl]
  rfl

theorem serviceOf_udp (isLocal : Str → Bool) (raw value : Str) :
    serviceOf isLocal ("ECOENV_UDP_".toList ++ raw, value) = tcpUdp isLocal .udp raw value := by
  rw [show "ECOENV_UDP_".toList ++ raw = 'E' :: 'C' :: 'O' :: 'E' :: 'N' :: 'V' :: '_' :: 'U' :: 'D' :: 'P' :: '_' :: raw from rfl]
  rfl

theorem serviceOf_uds (isLocal : Str → Bool) (raw value : Str) :
    serviceOf isLocal ("ECOENV_UDS_".toList ++ raw, value) =
      some ⟨(parseNameInstance raw).1, (parseNameInstance raw).2, .uds, none, some value⟩ := by
  rw [show "ECOENV_UDS_".toList ++ raw = 'E' :: 'C' :: 'O' :: 'E' :: 'N' :: 'V' :: '_' :: 'U' :: 'D' :: 'S' :: '_' :: raw from rfl]
  rfl

theorem discover_mem {isLocal : Str → Bool} {env : Env} {k v : Str} (hk : env.get? k = some v) {s : Service}
    (hs : serviceOf isLocal (k, v) = some s) : s ∈ discover isLocal env :=
  List.mem_filterMap.2 ⟨(k, v), Dict.get?_mem _ _ _ hk, hs⟩

theorem name_instance (self : Self) (h : '_' ∉ self.inst) :
    parseNameInstance (Str.upper self.app ++ '_' :: Str.upper self.inst) = (Str.lower (Str.upper self.app), Str.upper self.inst) := by
  unfold parseNameInstance
  rw [rsplit_last _ _ _ (upper_free _ h)]

end Verif.Scrape
