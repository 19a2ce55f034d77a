import Verif.Fun.Model
import Verif.Fun.Spec
import Mathlib.Data.List.Sort
import Mathlib.Data.List.Nodup

/-! # C94: the lottery and the dice -/

namespace Verif.Fun

open Verif.Py Spec

theorem choice_mem {l : List Nat} (h : l ≠ []) (r : Nat) : ∃ x ∈ l, choice l r = .ok x := by
  have hl : 0 < l.length := List.length_pos_iff.2 h
  have hr : r % l.length < l.length := Nat.mod_lt _ hl
  refine ⟨l[r % l.length], List.getElem_mem hr, ?_⟩
  unfold choice
  rw [List.getElem?_eq_getElem hr]

theorem choice_any {l : List Nat} {x : Nat} (h : x ∈ l) : ∃ r, choice l r = .ok x := by
  obtain ⟨i, hi, rfl⟩ := List.getElem_of_mem h
  refine ⟨i, ?_⟩
  unfold choice
  rw [Nat.mod_eq_of_lt hi, List.getElem?_eq_getElem hi]

/-- The loop draws different numbers. -/
theorem draw_spec (chance : Nat → Nat) : ∀ (n : Nat) (l : List Nat), l.Nodup → n ≤ l.length →
    ∃ cs, draw chance n l = .ok cs ∧ cs.length = n ∧ cs.Nodup ∧ ∀ c ∈ cs, c ∈ l
  | 0, l, _, _ => ⟨[], rfl, rfl, .nil, by simp⟩
  | n + 1, l, hl, hn => by
    obtain ⟨x, hx, hc⟩ := choice_mem (l := l) (by rintro rfl; simp at hn) (chance n)
    obtain ⟨cs, h1, h2, h3, h4⟩ := draw_spec chance n (l.erase x) (hl.erase x) (by rw [List.length_erase_of_mem hx]; omega)
    refine ⟨x :: cs, ?_, by simp [h2], ?_, ?_⟩
    · simp only [draw, hc, h1]
    · rw [List.nodup_cons]
      exact ⟨fun h => (hl.mem_erase_iff.1 (h4 x h)).1 rfl, h3⟩
    · intro c hc
      rcases List.mem_cons.1 hc with rfl | hc
      · exact hx
      · exact List.mem_of_mem_erase (h4 c hc)

/-- Only the first `n` chances matter. -/
theorem draw_congr {f g : Nat → Nat} : ∀ (n : Nat) (l : List Nat), (∀ i < n, f i = g i) → draw f n l = draw g n l
  | 0, _, _ => rfl
  | n + 1, l, h => by
    simp only [draw, h n (by omega)]
    cases choice l (g n) with
    | error e => rfl
    | ok c => simp only [draw_congr n (l.erase c) fun i hi => h i (by omega)]

/-- Every sequence of different numbers can be drawn. -/
theorem draw_any : ∀ (cs l : List Nat), cs.Nodup → (∀ c ∈ cs, c ∈ l) → ∃ chance, draw chance cs.length l = .ok cs
  | [], _, _, _ => ⟨fun _ => 0, rfl⟩
  | c :: cs, l, hn, hm => by
    rw [List.nodup_cons] at hn
    obtain ⟨f, hf⟩ := draw_any cs (l.erase c) hn.2 fun d hd =>
      (List.mem_erase_of_ne (by rintro rfl; exact hn.1 hd)).2 (hm d (.tail _ hd))
    obtain ⟨r, hr⟩ := choice_any (hm c (.head _))
    refine ⟨fun i => if i = cs.length then r else f i, ?_⟩
    have : draw (fun i => if i = cs.length then r else f i) cs.length (l.erase c) = .ok cs := by
      rw [← hf]
      exact draw_congr _ _ fun i hi => if_neg (by omega)
    simp only [List.length_cons, draw, if_true, hr, this]

theorem rjust2_eq {n : Nat} (h : n < 100) : rjust2 n = two n := by
  have : ∀ m : Fin 100, rjust2 m.val = two m.val := by decide +kernel
  exact this ⟨n, h⟩

theorem joined_false : ∀ (s : List Nat) (acc : Str), (∀ n ∈ s, n < 100) → s ≠ [] →
    joined s false acc = acc ++ ", ".toList ++ commas s
  | [], _, _, h => absurd rfl h
  | [n], acc, h, _ => by
    simp [joined, commas, rjust2_eq (h n (.head _))]
  | n :: m :: ns, acc, h, _ => by
    have ih := joined_false (m :: ns) (acc ++ ", ".toList ++ two n) (fun k hk => h k (.tail _ hk)) (by simp)
    rw [joined]
    simp only [Bool.false_eq_true, if_false, rjust2_eq (h n (.head _))]
    rw [ih]
    simp [commas]

theorem joined_true (s : List Nat) (h : ∀ n ∈ s, n < 100) : joined s true [] = commas s := by
  match s with
  | [] => rfl
  | [n] => simp [joined, commas, rjust2_eq (h n (.head _))]
  | n :: m :: ns =>
    rw [joined]
    simp only [if_true, rjust2_eq (h n (.head _)), List.nil_append]
    rw [joined_false _ _ (fun k hk => h k (.tail _ hk)) (by simp)]
    rfl

theorem range_mem {n : Nat} : n ∈ List.range' 1 51 ↔ 1 ≤ n ∧ n ≤ 51 := by
  rw [List.mem_range'_1]; omega

/-- **C94, every line is six different numbers out of 51 in order and a seventh as a bonus**, whatever chance decides; nothing is raised. -/
theorem C94_lottery (chance : Nat → Nat) : ∃ s b, Admissible s b ∧ pickSet chance = .ok (line s b) := by
  obtain ⟨cs, h1, h2, h3, h4⟩ := draw_spec chance 7 (List.range' 1 51) List.nodup_range' (by simp)
  have hb : cs[6]? = some cs[6] := List.getElem?_eq_getElem (by omega)
  have hperm := List.perm_insertionSort (· ≤ ·) (cs.take 6)
  have hsort := List.pairwise_insertionSort (· ≤ ·) (cs.take 6)
  have hmem : ∀ n ∈ (cs.take 6).insertionSort (· ≤ ·), n ∈ cs := fun n hn => List.mem_of_mem_take (hperm.mem_iff.1 hn)
  have hbound : ∀ n ∈ cs, 1 ≤ n ∧ n ≤ 51 := fun n hn => range_mem.1 (h4 n hn)
  refine ⟨(cs.take 6).insertionSort (· ≤ ·), cs[6], ⟨?_, ?_, ?_, ?_⟩, ?_⟩
  · rw [hperm.length_eq, List.length_take]; omega
  · have hnd : ((cs.take 6).insertionSort (· ≤ ·)).Nodup := hperm.nodup_iff.2 (h3.sublist (List.take_sublist _ _))
    exact hsort.imp₂ (fun a b h hne => Nat.lt_of_le_of_ne h hne) hnd
  · intro hm
    obtain ⟨i, hi, e⟩ := List.getElem_of_mem (hperm.mem_iff.1 hm)
    have hi' : i < 6 := by rw [List.length_take] at hi; omega
    rw [List.getElem_take] at e
    have := (List.Nodup.getElem_inj_iff h3).1 e
    omega
  · intro n hn
    rcases List.mem_cons.1 hn with rfl | hn
    · exact hbound _ (List.getElem_mem _)
    · exact hbound n (hmem n hn)
  · unfold pickSet
    simp only [h1, hb]
    rw [joined_true _ fun n hn => by have := hbound n (hmem n hn); omega,
      rjust2_eq (by have := hbound cs[6] (List.getElem_mem _); omega)]
    simp [line]

/-- **C94, and every such line is possible.** -/
theorem C94_every_line (s : List Nat) (b : Nat) (h : Admissible s b) : ∃ chance, pickSet chance = .ok (line s b) := by
  obtain ⟨hlen, hs, hb, hbound⟩ := h
  have hnd : (s ++ [b]).Nodup := by
    rw [List.nodup_append]
    refine ⟨hs.imp fun h => Nat.ne_of_lt h, by simp, ?_⟩
    intro a ha c hc
    rw [List.mem_singleton] at hc
    rintro rfl
    exact hb (hc ▸ ha)
  obtain ⟨chance, hd⟩ := draw_any (s ++ [b]) (List.range' 1 51) hnd fun c hc => range_mem.2 (hbound c (by
    rw [List.mem_append, List.mem_singleton] at hc; rw [List.mem_cons]; exact hc.symm))
  have h7 : (s ++ [b]).length = 7 := by simp [hlen]
  rw [h7] at hd
  refine ⟨chance, ?_⟩
  have ht : (s ++ [b]).take 6 = s := by rw [← hlen, List.take_left']; rfl
  have hg : (s ++ [b])[6]? = some b := by rw [List.getElem?_append_right (by omega), hlen]; rfl
  have hsort : s.insertionSort (· ≤ ·) = s := List.Pairwise.insertionSort_eq (hs.imp fun h => Nat.le_of_lt h)
  unfold pickSet
  simp only [hd, ht, hg, hsort]
  rw [joined_true _ fun n hn => by have := hbound n (.tail _ hn); omega, rjust2_eq (by have := hbound b (.head _); omega)]
  simp [line]

theorem mapM_each {α β : Type} (f : α → Except PyErr β) (P : β → Prop) : ∀ l : List α, (∀ x ∈ l, ∃ y, f x = .ok y ∧ P y) →
    ∃ ys, l.mapM f = .ok ys ∧ ys.length = l.length ∧ ∀ y ∈ ys, P y
  | [], _ => ⟨[], rfl, rfl, by simp⟩
  | x :: xs, h => by
    obtain ⟨y, hy, hP⟩ := h x (.head _)
    obtain ⟨ys, h1, h2, h3⟩ := mapM_each f P xs fun z hz => h z (.tail _ hz)
    refine ⟨y :: ys, ?_, by simp [h2], ?_⟩
    · rw [List.mapM_cons, hy, h1]; rfl
    · intro z hz
      rcases List.mem_cons.1 hz with rfl | hz
      · exact hP
      · exact h3 z hz

/-- **C94, as many lines as asked for**, none if the number is negative. -/
theorem C94_so_many (chance : Nat → Nat → Nat) (howMany : Int) :
    ∃ ls, pickNumbers chance howMany = .ok ls ∧ ls.length = howMany.toNat ∧ ∀ l ∈ ls, ∃ s b, Admissible s b ∧ l = line s b := by
  have := mapM_each (fun j => pickSet (chance j)) (fun l => ∃ s b, Admissible s b ∧ l = line s b) (List.range howMany.toNat) fun j _ => by
    obtain ⟨s, b, h1, h2⟩ := C94_lottery (chance j)
    exact ⟨_, h2, s, b, h1, rfl⟩
  simpa [pickNumbers] using this

example : Admissible [3, 9, 10, 21, 50, 51] 4 ∧ line [3, 9, 10, 21, 50, 51] 4 = " 3,  9, 10, 21, 50, 51 [ 4]".toList := by
  refine ⟨⟨rfl, by decide, by decide, by decide⟩, by decide +kernel⟩

theorem face_mem {n : Nat} {sides : Int} : n ∈ faces sides ↔ 1 ≤ n ∧ (n : Int) < sides := by
  unfold faces
  rw [List.mem_range'_1]; omega

/-- **C94, what a die shows.** With two sides or more: one of the numbers below the number of sides, each of which is possible. With fewer
there is an `IndexError`. -/
theorem C94_dice_partial (sides : Int) :
    (2 ≤ sides → (∀ r, ∃ n, roll r sides = .ok n ∧ 1 ≤ n ∧ (n : Int) < sides) ∧ ∀ n : Nat, 1 ≤ n → (n : Int) < sides → ∃ r, roll r sides = .ok n) ∧
    (sides ≤ 1 → ∀ r, roll r sides = .error .indexError) := by
  refine ⟨fun h => ⟨fun r => ?_, fun n h1 h2 => choice_any (face_mem.2 ⟨h1, h2⟩)⟩, fun h r => ?_⟩
  · obtain ⟨n, hn, hc⟩ := choice_mem (l := faces sides) (List.ne_nil_of_mem (face_mem (n := 1).2 ⟨Nat.le_refl _, by omega⟩)) r
    exact ⟨n, hc, face_mem.1 hn⟩
  · have : (sides - 1).toNat = 0 := by omega
    simp [roll, choice, faces, this]

/-- A die never shows its highest side, and one with one side cannot be thrown. -/
theorem C94_dice_refuted : (∀ r (sides : Nat), roll r sides ≠ .ok sides) ∧ ∀ r, roll r 1 = .error .indexError := by
  refine ⟨fun r sides h => ?_, fun r => (C94_dice_partial 1).2 (by decide) r⟩
  by_cases hs : 2 ≤ (sides : Int)
  · obtain ⟨n, h1, -, h2⟩ := ((C94_dice_partial sides).1 hs).1 r
    rw [h1] at h
    cases h
    omega
  · rw [(C94_dice_partial sides).2 (by omega) r] at h
    cases h

theorem total_spec (chance : Nat → Nat) (sides : Int) (h : 2 ≤ sides) : ∀ n,
    ∃ rolls : List Nat, rolls.length = n ∧ (∀ x ∈ rolls, 2 ≤ x ∧ (x : Int) ≤ sides) ∧ total chance sides n = .ok rolls.sum
  | 0 => ⟨[], rfl, by simp, rfl⟩
  | n + 1 => by
    obtain ⟨rolls, h1, h2, h3⟩ := total_spec chance sides h n
    obtain ⟨c, hc, e⟩ := choice_mem (l := faces sides) (List.ne_nil_of_mem (face_mem (n := 1).2 ⟨Nat.le_refl _, by omega⟩)) (chance n)
    have := face_mem.1 hc
    refine ⟨(c + 1) :: rolls, by simp [h1], ?_, by simp only [total, e, h3, List.sum_cons]⟩
    intro x hx
    rcases List.mem_cons.1 hx with rfl | hx
    · omega
    · exact h2 x hx

theorem total_congr {f g : Nat → Nat} {sides : Int} : ∀ n, (∀ i < n, f i = g i) → total f sides n = total g sides n
  | 0, _ => rfl
  | n + 1, h => by simp only [total, h n (by omega), total_congr n fun i hi => h i (by omega)]

theorem total_any {sides : Int} : ∀ rolls : List Nat, (∀ x ∈ rolls, 2 ≤ x ∧ (x : Int) ≤ sides) →
    ∃ chance, total chance sides rolls.length = .ok rolls.sum
  | [], _ => ⟨fun _ => 0, rfl⟩
  | x :: rolls, h => by
    obtain ⟨f, hf⟩ := total_any rolls fun y hy => h y (.tail _ hy)
    have hx := h x (.head _)
    obtain ⟨r, hr⟩ := choice_any (l := faces sides) (x := x - 1) (face_mem.2 (by omega))
    refine ⟨fun i => if i = rolls.length then r else f i, ?_⟩
    have : total (fun i => if i = rolls.length then r else f i) sides rolls.length = .ok rolls.sum := by
      rw [← hf]
      exact total_congr _ fun i hi => if_neg (by omega)
    simp only [List.length_cons, total, if_true, hr, this, List.sum_cons]
    congr 1
    omega

/-- **C94, throwing many times** a die with two sides or more: as many throws as asked for, each from 2 to the number of sides, and done if
they sum up to three fifths of the greatest sum. Every such series is possible. -/
theorem C94_roll_times (sides : Int) (hs : 2 ≤ sides) (howMany : Nat) :
    (∀ chance, ∃ rolls : List Nat, rolls.length = howMany ∧ (∀ x ∈ rolls, 2 ≤ x ∧ (x : Int) ≤ sides) ∧
      rollTimes chance sides howMany = .ok (decide (3 * (sides * howMany) ≤ 5 * (rolls.sum : Int)))) ∧
    (∀ rolls : List Nat, rolls.length = howMany → (∀ x ∈ rolls, 2 ≤ x ∧ (x : Int) ≤ sides) →
      ∃ chance, rollTimes chance sides howMany = .ok (decide (3 * (sides * howMany) ≤ 5 * (rolls.sum : Int)))) := by
  have key : ∀ s : Nat, (!decide (5 * (s : Int) < 3 * (sides * howMany))) = decide (3 * (sides * howMany) ≤ 5 * (s : Int)) := by
    intro s
    rw [← decide_not]
    exact decide_eq_decide.2 Int.not_lt
  refine ⟨fun chance => ?_, fun rolls hl hr => ?_⟩
  · obtain ⟨rolls, h1, h2, h3⟩ := total_spec chance sides hs howMany
    refine ⟨rolls, h1, h2, ?_⟩
    unfold rollTimes
    rw [Int.toNat_natCast, h3]
    simp only [key]
  · obtain ⟨chance, h⟩ := total_any rolls hr
    refine ⟨chance, ?_⟩
    unfold rollTimes
    rw [Int.toNat_natCast, ← hl, h]
    simp only [hl, key]

/-- A die with fewer than two sides fails as soon as it is to be thrown at all. -/
theorem C94_roll_times_few (sides : Int) (hs : sides ≤ 1) (chance : Nat → Nat) (howMany : Nat) :
    rollTimes chance sides (howMany + 1) = .error .indexError := by
  have h := (C94_dice_partial sides).2 hs (chance howMany)
  have ht : ((howMany : Int) + 1).toNat = howMany + 1 := by omega
  unfold roll at h
  simp only [rollTimes, ht, total, h]

example : ∃ chance, rollTimes chance 6 3 = .ok true := by
  have := (C94_roll_times 6 (by decide) 3).2 [6, 2, 3] rfl (by decide)
  simpa using this

end Verif.Fun
