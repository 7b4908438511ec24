import Verif.Lemmas.JsonBytes
import Verif.Props.JsonText

/-!
Property C105: data files as bytes. Specification: `Spec/Encodings.lean` (the encodings) and `Spec/JsonText.lean` (the grammar).
-/

namespace PashAnn
open Spec Spec.Encodings
open Spec.JsonText (Writes)

/-- The bytes of a file are read as `j` exactly if they are a text that writes `j`, in UTF-8, UTF-16 or UTF-32, with any order of the
bytes, with or without a mark. -/
theorem C105_encodings (bytes : List UInt8) (j : Json) : Bytes.loads bytes = .ok j ↔ Holds bytes j := Bytes.loads_iff bytes j

/-- A data file in three encodings. -/
example : Bytes.loads [91, 34, 0xC3, 0xA4, 34, 93] = .ok (.arr [.str "ä"]) ∧
    Bytes.loads [0xFF, 0xFE, 91, 0, 34, 0, 0xE4, 0, 34, 0, 93, 0] = .ok (.arr [.str "ä"]) ∧
    Bytes.loads [0, 0, 0, 91, 0, 0, 0, 34, 0, 1, 0xF6, 0, 0, 0, 0, 34, 0, 0, 0, 93] = .ok (.arr [.str "😀"]) :=
  ⟨rfl, rfl, rfl⟩

example : Writes "[\"ä\"]".toList (.arr [.str "ä"]) ∧
    Encoding.utf8.encode "[\"ä\"]".toList = [91, 34, 0xC3, 0xA4, 34, 93] ∧
    (Encoding.utf16 .little).encode (mark :: "[\"ä\"]".toList) = [0xFF, 0xFE, 91, 0, 34, 0, 0xE4, 0, 34, 0, 93, 0] ∧
    (Encoding.utf32 .big).encode "😀".toList = [0, 1, 0xF6, 0] ∧ (Encoding.utf16 .big).encode "😀".toList = [0xD8, 0x3D, 0xDE, 0x00] ∧
    Encoding.utf8.encode "😀".toList = [0xF0, 0x9F, 0x98, 0x80] :=
  ⟨(C101_reads _ _).1 rfl, by decide +kernel, by decide +kernel, by decide +kernel, by decide +kernel, by decide +kernel⟩

/-- Hence no bytes hold two values, not even by way of two encodings, and bytes that hold none are rejected with one of these
errors (or, if they encode half a pair of surrogates, are outside the model). -/
theorem C105_one_value (bytes : List UInt8) :
    (∀ j j', Holds bytes j → Holds bytes j' → j = j') ∧
    ((∀ j, ¬ Holds bytes j) ↔
      ∃ e ∈ [PyErr.valueError "UnicodeDecodeError", .valueError "JSONDecodeError", .outsideModel], Bytes.loads bytes = .error e) := by
  constructor
  · intro j j' h h'
    rw [← C105_encodings] at h h'
    rw [h] at h'
    exact Except.ok.inj h'
  · simp only [← C105_encodings]
    constructor
    · intro h
      cases hl : Bytes.loads bytes with
      | ok j => exact absurd hl (h j)
      | error e => exact ⟨e, Bytes.loads_error hl, rfl⟩
    · rintro ⟨e, _, he⟩ j hj
      rw [he] at hj
      cases hj

/-- Bytes that are no text, a text that is not JSON, and half a pair. -/
example : Bytes.loads [0xC0, 0x80] = .error (.valueError "UnicodeDecodeError") ∧
    Bytes.loads [91, 34, 93] = .error (.valueError "JSONDecodeError") ∧
    Bytes.loads [34, 0xED, 0xA0, 0x80, 34] = .error .outsideModel :=
  ⟨rfl, rfl, rfl⟩

/-- A file in UTF-8 without null characters and without a mark is read as its text, whether that is JSON or not. -/
theorem C105_utf8 (text : List Char) (h0 : Char.ofNat 0 ∉ text) (hm : text.head? ≠ some mark) :
    (∀ j, Bytes.loads (Encoding.utf8.encode text) = .ok j ↔ Writes text j) ∧
    ((∀ j, ¬ Writes text j) ↔ Bytes.loads (Encoding.utf8.encode text) = .error (.valueError "JSONDecodeError")) := by
  rw [Bytes.loads_utf8 text (fun c hc h => h0 (by rw [← h, Char.ofNat_toNat]; exact hc)) hm]
  simp only [← C101_reads]
  cases Json.loads text <;> simp

/-- With null characters the guess can be wrong: four bytes that are no JSON text in UTF-8 are read as a number in UTF-32. With a mark
the mark is dropped. -/
example : Bytes.loads (Encoding.utf8.encode ['1', Char.ofNat 0, Char.ofNat 0, Char.ofNat 0]) = .ok (.num "1") ∧
    Bytes.loads (Encoding.utf8.encode [mark, '1']) = .ok (.num "1") ∧
    Json.loads ['1', Char.ofNat 0, Char.ofNat 0, Char.ofNat 0] = none ∧ Json.loads [mark, '1'] = none :=
  ⟨rfl, rfl, rfl, rfl⟩

theorem shippedTexts_write : ∀ e ∈ shippedTexts, ∃ j d, Writes e.2 j ∧ Data.table.lookup e.1 = some d ∧ FileLists j d := by
  intro e he
  obtain ⟨e, hmem, rfl⟩ := List.mem_map.1 he
  have hd := Json.texts_decode e hmem
  have hsome : (Data.table.lookup e.1).isSome := by
    have h1 : e.1 ∈ Data.table.map Prod.fst := by
      rw [← Json.texts_names]
      exact List.mem_map_of_mem hmem
    obtain ⟨x, hx, hxe⟩ := List.mem_map.1 h1
    rw [← hxe, Option.isSome_iff_ne_none]
    intro hn
    rw [List.lookup_eq_none_iff] at hn
    simpa using hn x hx
  obtain ⟨d, hdd⟩ := Option.isSome_iff_exists.1 hsome
  simp only [hdd] at hd
  obtain ⟨j, hj, hdec⟩ := Option.bind_eq_some_iff.1 hd
  exact ⟨j, d, (C101_reads _ _).1 hj, hdd, Json.decode_lists hdec⟩

/-- Every shipped file says the same in every encoding, with or without a mark. -/
theorem C105_shipped : ∀ e ∈ shippedTexts, ∃ j d, Data.table.lookup e.1 = some d ∧ FileLists j d ∧
    ∀ c : Encoding, Bytes.loads (c.encode e.2) = .ok j ∧ Bytes.loads (c.encode (mark :: e.2)) = .ok j := by
  intro e he
  obtain ⟨j, d, hw, hd, hl⟩ := shippedTexts_write e he
  exact ⟨j, d, hd, hl, fun c => ⟨(C105_encodings _ _).2 ⟨c, e.2, hw, .inl rfl⟩, (C105_encodings _ _).2 ⟨c, e.2, hw, .inr rfl⟩⟩⟩

theorem shippedTexts_plain : ∀ e ∈ shippedTexts, Char.ofNat 0 ∉ e.2 ∧ e.2.head? ≠ some mark := by
  intro e he
  obtain ⟨j, _, hw, _⟩ := shippedTexts_write e he
  constructor
  · intro h
    have := Bytes.writes_ge hw _ h
    revert this
    decide
  · obtain ⟨c, t, hc, h128⟩ := Bytes.writes_head hw
    rw [hc]
    intro h
    simp only [List.head?_cons, Option.some.injEq] at h
    rw [h] at h128
    revert h128
    decide

end PashAnn
