import Verif.Wire.Lemmas
import Verif.Stream.Lemmas
import Verif.Stream.Props
import Verif.Span.Props

/-!
# Bytes of messages, and the fields of messages
-/

namespace Verif.Wire

open Verif.Py Verif.Span Verif.Server Verif.Stream Verif.Wire.Spec

/-! ### UTF-8 -/

theorem encode_ofList (l : Str) : encode (String.ofList l) = l.flatMap String.utf8EncodeChar := by
  unfold encode
  rw [String.toByteArray_ofList, List.utf8Encode, List.toList_data_toByteArray]

theorem decode_encode (s : String) : decode (encode s) = some s := by
  unfold decode encode
  have h : (⟨s.toByteArray.data.toList.toArray⟩ : ByteArray) = s.toByteArray := by rw [Array.toArray_toList]
  rw [h]
  unfold String.fromUTF8?
  rw [dif_pos s.isValidUTF8]
  rfl

theorem char_byte (c : Char) (b : UInt8) (h : b ∈ String.utf8EncodeChar c) : b.toNat = c.toNat ∨ 128 ≤ b.toNat := by
  unfold String.utf8EncodeChar at h
  have hc : c.val.toNat = c.toNat := rfl
  simp only [hc] at h
  split at h
  · rw [List.mem_singleton] at h; subst h
    left; rw [UInt8.toNat_ofNat']; omega
  · right
    split at h
    · simp only [List.mem_cons, List.not_mem_nil, or_false] at h
      rcases h with rfl | rfl <;> (rw [UInt8.toNat_ofNat']; omega)
    · split at h <;> simp only [List.mem_cons, List.not_mem_nil, or_false] at h
      · rcases h with rfl | rfl | rfl <;> (rw [UInt8.toNat_ofNat']; omega)
      · rcases h with rfl | rfl | rfl | rfl <;> (rw [UInt8.toNat_ofNat']; omega)

theorem printable_byte {l : Str} (h : ∀ c ∈ l, 32 ≤ c.toNat) : ∀ b ∈ encode (String.ofList l), 32 ≤ b.toNat := by
  intro b hb
  rw [encode_ofList, List.mem_flatMap] at hb
  obtain ⟨c, hc, hb⟩ := hb
  have := h c hc
  rcases char_byte c b hb with h | h <;> omega

/-! ### Printable -/

theorem digit_printable {c : Char} (h : c.isDigit = true) : 32 ≤ c.toNat := by
  unfold Char.isDigit at h
  rw [Bool.and_eq_true, decide_eq_true_iff, decide_eq_true_iff] at h
  have h1 : (48 : UInt32) ≤ c.val := h.1
  have h2 : (48 : UInt32).toNat ≤ c.val.toNat := h1
  have h3 : c.val.toNat = c.toNat := rfl
  have h4 : (48 : UInt32).toNat = 48 := rfl
  omega

theorem ofNat_printable (n : Nat) : ∀ c ∈ Str.ofNat n, 32 ≤ c.toNat := fun c h => digit_printable (Str.digit_ofNat n c h)

theorem hexDigit_printable (n : Nat) : 32 ≤ (hexDigit n).toNat := by
  have : ∀ d < 16, 32 ≤ (Nat.digitChar d).toNat := by decide
  exact this _ (Nat.mod_lt _ (by omega))

theorem escape_printable (c : Char) : ∀ d ∈ escape c, 32 ≤ d.toNat := by
  intro d hd
  have lit : ∀ l : Str, d ∈ l → (∀ x ∈ l, 32 ≤ x.toNat) → 32 ≤ d.toNat := fun l h h' => h' d h
  unfold escape at hd
  split at hd
  · exact lit _ hd (by decide)
  split at hd
  · exact lit _ hd (by decide)
  split at hd
  · exact lit _ hd (by decide)
  split at hd
  · exact lit _ hd (by decide)
  split at hd
  · exact lit _ hd (by decide)
  split at hd
  · exact lit _ hd (by decide)
  split at hd
  · exact lit _ hd (by decide)
  split at hd
  · simp only [List.mem_cons, List.not_mem_nil, or_false] at hd
    rcases hd with rfl | rfl | rfl | rfl | rfl | rfl
    · decide
    · decide
    · decide
    · decide
    · exact hexDigit_printable _
    · exact hexDigit_printable _
  · rw [List.mem_singleton] at hd; subst hd; omega

theorem writeStr_printable (s : String) : ∀ c ∈ writeStr s, 32 ≤ c.toNat := by
  intro c hc
  unfold writeStr at hc
  rcases List.mem_cons.1 hc with rfl | hc
  · decide
  rcases List.mem_append.1 hc with hc | hc
  · obtain ⟨x, -, hx⟩ := List.mem_flatMap.1 hc
    exact escape_printable x c hx
  · rw [List.mem_singleton] at hc; subst hc; decide

theorem writeInt_printable (i : Int) : ∀ c ∈ writeInt i, 32 ≤ c.toNat := by
  intro c hc
  cases i with
  | ofNat n => exact ofNat_printable n c hc
  | negSucc n =>
    rcases List.mem_cons.1 hc with rfl | hc
    · decide
    · exact ofNat_printable _ c hc

mutual

theorem write_printable (F : Floats) (hF : ∀ r t, F.text r = some t → ∀ c ∈ t, 32 ≤ c.toNat) : ∀ (j : Json), ∀ c ∈ write F j, 32 ≤ c.toNat
  | .null => by rw [write]; decide
  | .bool true => by rw [write]; decide
  | .bool false => by rw [write]; decide
  | .int i => by rw [write]; exact writeInt_printable i
  | .float r => by
    rw [write]
    cases h : F.text r with
    | none => decide
    | some t => exact hF r t h
  | .str s => by rw [write]; exact writeStr_printable s
  | .arr l => by
    intro c hc
    rw [write] at hc
    rcases List.mem_cons.1 hc with rfl | hc
    · decide
    rcases List.mem_append.1 hc with hc | hc
    · exact writeItems_printable F hF l c hc
    · rw [List.mem_singleton] at hc; subst hc; decide
  | .obj l => by
    intro c hc
    rw [write] at hc
    rcases List.mem_cons.1 hc with rfl | hc
    · decide
    rcases List.mem_append.1 hc with hc | hc
    · exact writeFields_printable F hF l c hc
    · rw [List.mem_singleton] at hc; subst hc; decide

theorem writeItems_printable (F : Floats) (hF : ∀ r t, F.text r = some t → ∀ c ∈ t, 32 ≤ c.toNat) : ∀ (l : List Json), ∀ c ∈ writeItems F l, 32 ≤ c.toNat
  | [] => by rw [writeItems]; intro c hc; cases hc
  | [v] => by rw [writeItems]; exact write_printable F hF v
  | v :: v' :: vs => by
    intro c hc
    rw [writeItems] at hc
    rcases List.mem_append.1 hc with hc | hc
    · exact write_printable F hF v c hc
    rcases List.mem_cons.1 hc with rfl | hc
    · decide
    · exact writeItems_printable F hF (v' :: vs) c hc

theorem writeFields_printable (F : Floats) (hF : ∀ r t, F.text r = some t → ∀ c ∈ t, 32 ≤ c.toNat) :
    ∀ (l : List (String × Json)), ∀ c ∈ writeFields F l, 32 ≤ c.toNat
  | [] => by rw [writeFields]; intro c hc; cases hc
  | [(k, v)] => by
    intro c hc
    rw [writeFields] at hc
    rcases List.mem_append.1 hc with hc | hc
    · exact writeStr_printable k c hc
    rcases List.mem_cons.1 hc with rfl | hc
    · decide
    · exact write_printable F hF v c hc
  | (k, v) :: x :: xs => by
    intro c hc
    rw [writeFields] at hc
    rcases List.mem_append.1 hc with hc | hc
    · exact writeStr_printable k c hc
    rcases List.mem_cons.1 hc with rfl | hc
    · decide
    rcases List.mem_append.1 hc with hc | hc
    · exact write_printable F hF v c hc
    rcases List.mem_cons.1 hc with rfl | hc
    · decide
    · exact writeFields_printable F hF (x :: xs) c hc

end

theorem floatText_printable {t : Str} (h : FloatText t) : ∀ c ∈ t, 32 ≤ c.toNat := by
  obtain ⟨sign, ip, fr, ex, rfl, h1, h2, h3, h4, -⟩ := h
  intro c hc
  simp only [List.mem_append] at hc
  rcases hc with ((hc | hc) | hc) | hc
  · rcases h1 with rfl | rfl
    · cases hc
    · rw [List.mem_singleton] at hc; subst hc; decide
  · rcases h2 with rfl | ⟨-, -, h⟩
    · rw [List.mem_singleton] at hc; subst hc; decide
    · exact digit_printable (h c hc)
  · rcases h3 with rfl | ⟨ds, rfl, -, h⟩
    · cases hc
    · rcases List.mem_cons.1 hc with rfl | hc
      · decide
      · exact digit_printable (h c hc)
  · rcases h4 with rfl | ⟨e, s, ds, rfl, he, hs, -, h⟩
    · cases hc
    · rcases List.mem_cons.1 hc with rfl | hc
      · rcases he with rfl | rfl <;> decide
      · rcases List.mem_append.1 hc with hc | hc
        · rcases hs with rfl | rfl | rfl
          · cases hc
          · rw [List.mem_singleton] at hc; subst hc; decide
          · rw [List.mem_singleton] at hc; subst hc; decide
        · exact digit_printable (h c hc)

/-! ### Whole texts -/

theorem dropWhile_all {p : Char → Bool} {t : Str} (h : ∀ c ∈ t, p c = true) : t.dropWhile p = [] := by
  induction t with
  | nil => rfl
  | cons c t ih => rw [List.dropWhile_cons, h c (.head _), if_pos rfl]; exact ih (fun d hd => h d (.tail _ hd))

theorem skip_ws {t : Str} (ht : ∀ c ∈ t, isWs c = true) : skip t = [] := by
  exact dropWhile_all ht

theorem ends_ws {t : Str} (ht : ∀ c ∈ t, isWs c = true) : Ends t := by
  intro c hc
  have := ht c (List.mem_of_mem_head? hc)
  unfold isWs at this
  simp only [Bool.or_eq_true, decide_eq_true_iff] at this
  rcases this with ((rfl | rfl) | rfl) | rfl <;> decide

theorem loads_write (F : Floats) (j : Json) (hj : Sendable F j) {t : Str} (ht : ∀ c ∈ t, isWs c = true) : loads F (write F j ++ t) = .ok j := by
  have h := scan_write F j hj ((write F j ++ t).length + 1) t (by rw [List.length_append]; omega) (ends_ws ht)
  unfold loads
  obtain ⟨c, r, hc, hw, -⟩ := write_head F j hj
  have hbom : (write F j ++ t).head? ≠ some '\ufeff' := by
    intro hb
    have hp : scan F ((write F j ++ t).length + 1) (write F j ++ t) = .error .decode := by
      cases hs : write F j ++ t with
      | nil => rw [hs] at hb; cases hb
      | cons a l =>
        rw [hs, List.head?_cons, Option.some.injEq] at hb
        subst hb
        rw [scan, if_neg (by decide), if_neg (by decide), if_neg (by decide), if_neg (by simp [List.isPrefixOf]),
          if_neg (by simp [List.isPrefixOf]), if_neg (by simp [List.isPrefixOf])]
        rw [scanNumber, if_neg (by decide)]
        have : unsigned F false ('\ufeff' :: l) = none := by
          unfold unsigned; rw [whole, if_neg (by decide), if_neg (by decide)]
        rw [this, Option.getD_none]
        unfold scanConstant
        simp [List.isPrefixOf]
    rw [h] at hp
    cases hp
  rw [if_neg hbom]
  have hsk : skip (write F j ++ t) = write F j ++ t := by
    rw [hc, List.cons_append]; exact skip_of hw
  rw [hsk, h]
  simp only
  rw [if_pos (skip_ws ht)]

theorem isWhite_iff (c : Char) : Str.isWhite c = true ↔ White c := by
  unfold Str.isWhite White
  simp only [Bool.or_eq_true, Bool.and_eq_true, decide_eq_true_eq, List.mem_cons, List.not_mem_nil, or_false]
  omega

theorem strip_wrapped (a b : Char) (m t : Str) (ha : Str.isWhite a = false) (hb : Str.isWhite b = false) (ht : ∀ c ∈ t, Str.isWhite c = true) :
    Str.strip (a :: (m ++ [b]) ++ t) = a :: (m ++ [b]) := by
  unfold Str.strip
  rw [List.cons_append, Str.dropWhile_head ha, ← List.cons_append, List.reverse_append, List.dropWhile_append]
  have h1 : t.reverse.dropWhile Str.isWhite = [] := dropWhile_all fun c hc => ht c (List.mem_reverse.1 hc)
  rw [h1]
  simp only [List.isEmpty_nil, if_true]
  have h2 : (a :: (m ++ [b])).reverse = b :: (m.reverse ++ [a]) := by simp
  rw [h2, Str.dropWhile_head hb, ← h2, List.reverse_reverse]

/-! ### Fields -/

theorem hex_valid {k : SpanKey} (h : k.Valid) : SpanId.ofHex k.span.hex = .ok k.span := by
  obtain ⟨-, h0, h1⟩ := h
  unfold SpanId.hex
  rw [if_neg (by omega), ofHex_hexPad (natAbs_lt h0 h1)]
  congr 1
  obtain ⟨t, ⟨v⟩⟩ := k
  simp only at h0 h1 ⊢
  congr 1
  omega

theorem spanOf_spanJson {k : SpanKey} (h : k.Valid) : spanOf (spanJson k) = some k := by
  unfold spanJson spanOf
  simp only [Dict.get?, if_true, if_neg (show ¬ "trace_id" = "span_id" by decide), String.toList_ofList]
  rw [uuidOfHex_text h.1, hex_valid h]

theorem sendable_span (F : Floats) (k : SpanKey) : Sendable F (spanJson k) := by
  unfold spanJson
  simp only [Sendable, SendableFields, and_self, and_true]
  simp

theorem sendable_request (F : Floats) {r : Req SpanKey} (h : Sendable F r.data) : Sendable F (requestJson r) := by
  unfold requestJson
  simp only [Sendable, SendableFields, and_true, true_and]
  exact ⟨by simp, sendable_span F _, h⟩

theorem sendable_response (F : Floats) {r : Resp SpanKey} (hs : (Nat.toDigits 10 r.status.natAbs).length ≤ 4300) (h : Sendable F (valJson r.data)) :
    Sendable F (responseJson r) := by
  unfold responseJson
  simp only [Sendable, SendableFields, and_true]
  refine ⟨by simp, ?_, hs, h⟩
  cases r.spanKey with
  | none => simp only [Sendable]
  | some k => exact sendable_span F k

end Verif.Wire
