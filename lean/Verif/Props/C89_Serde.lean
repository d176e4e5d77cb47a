import Verif.Spec.Serde
import Verif.Props.C24_Hex

/-! # C89 — hex values and data formats -/

namespace Verif

/-- **C89** (reading): a value is read exactly from texts, or bytes that are UTF-8, which the format lends from its
input, and which are hexadecimal digits with or without a prefix; it never panics. -/
theorem C89_accepts (v : Visit) (bs : Bytes) :
    (hexDeserialize v = .ok bs ↔
      ∃ s, (v = .borrowedStr s ∨ v = .borrowedBytes (utf8 s)) ∧ Spec.hexBytes (Spec.hexBody s) = some bs) ∧
    hexDeserialize v ≠ .panic := by
  have key : ∀ s, ((hexFromStr (utf8 s)).mapErr DeError.custom = .ok bs ↔
      Spec.hexBytes (Spec.hexBody s) = some bs) ∧ (hexFromStr (utf8 s)).mapErr DeError.custom ≠ .panic := by
    intro s
    obtain ⟨h1, h2⟩ := C24_from_str_exact s
    rw [← h1 bs]
    cases h : hexFromStr (utf8 s) with
    | ok x => simp [Out.mapErr]
    | err e => simp [Out.mapErr]
    | panic => exact absurd h h2
  unfold hexDeserialize strVisitor
  cases v with
  | borrowedStr s =>
    refine ⟨(key s).1.trans ⟨fun h => ⟨s, .inl rfl, h⟩, ?_⟩, (key s).2⟩
    rintro ⟨t, h | h, h'⟩
    · cases h; exact h'
    · cases h
  | borrowedBytes b =>
    dsimp only
    cases hb : fromUtf8 b with
    | none =>
      refine ⟨⟨fun h => (by cases h), ?_⟩, by simp⟩
      rintro ⟨t, h | h, _⟩
      · cases h
      · cases h
        rw [fromUtf8_utf8] at hb
        cases hb
    | some s =>
      refine ⟨(key s).1.trans ⟨fun h => ⟨s, .inr ?_, h⟩, ?_⟩, (key s).2⟩
      · rw [utf8_of_fromUtf8 hb]
      · rintro ⟨t, h | h, h'⟩
        · cases h
        · cases h
          rw [fromUtf8_utf8] at hb
          cases hb
          exact h'
  | str s => simp
  | string s => simp
  | bytes s => simp
  | byteBuf s => simp
  | newtypeStruct s => simp
  | other => simp

/-- and what is said of everything that is not: of the wrong type is what is neither a borrowed text nor borrowed bytes, of
the wrong value are bytes that are no text, and of texts that are no hex it is said what is wrong with them. -/
theorem C89_refuses (v : Visit) :
    (hexDeserialize v = .err .invalidType ↔ (∀ s, v ≠ .borrowedStr s) ∧ ∀ b, v ≠ .borrowedBytes b) ∧
    (hexDeserialize v = .err .invalidValue ↔ ∃ b, v = .borrowedBytes b ∧ ∀ s, utf8 s ≠ b) ∧
    ∀ e, hexDeserialize v = .err (.custom e) ↔
      ∃ s, (v = .borrowedStr s ∨ v = .borrowedBytes (utf8 s)) ∧ hexFromStr (utf8 s) = .err e := by
  have none_iff : ∀ b, fromUtf8 b = none ↔ ∀ s, utf8 s ≠ b := by
    intro b
    constructor
    · rintro h s rfl
      rw [fromUtf8_utf8] at h
      cases h
    · intro h
      cases hb : fromUtf8 b with
      | none => rfl
      | some s => exact absurd (utf8_of_fromUtf8 hb) (h s)
  have text : ∀ s, (hexFromStr (utf8 s)).mapErr DeError.custom ≠ .err .invalidType ∧
      (hexFromStr (utf8 s)).mapErr DeError.custom ≠ .err .invalidValue ∧
      ∀ e, (hexFromStr (utf8 s)).mapErr DeError.custom = .err (.custom e) ↔ hexFromStr (utf8 s) = .err e := by
    intro s
    cases hexFromStr (utf8 s) <;> simp [Out.mapErr]
  cases v with
  | borrowedStr s =>
    have hd : hexDeserialize (.borrowedStr s) = (hexFromStr (utf8 s)).mapErr DeError.custom := rfl
    rw [hd]
    refine ⟨⟨fun h => absurd h (text s).1, fun h => absurd rfl (h.1 s)⟩, ⟨fun h => absurd h (text s).2.1, ?_⟩, fun e => ?_⟩
    · rintro ⟨b, h, -⟩
      cases h
    · rw [(text s).2.2 e]
      constructor
      · exact fun h => ⟨s, .inl rfl, h⟩
      · rintro ⟨s', h | h, he⟩
        · cases h; exact he
        · cases h
  | borrowedBytes b =>
    cases hb : fromUtf8 b with
    | none =>
      have hd : hexDeserialize (.borrowedBytes b) = .err .invalidValue := by
        simp only [hexDeserialize, strVisitor, hb]
      rw [hd]
      refine ⟨⟨fun h => (by cases h), fun h => absurd rfl (h.2 b)⟩, ⟨fun _ => ⟨b, rfl, (none_iff b).1 hb⟩, fun _ => rfl⟩, fun e => ⟨fun h => (by cases h), ?_⟩⟩
      rintro ⟨s', h | h, he⟩
      · cases h
      · cases h
        exact absurd rfl ((none_iff _).1 hb s')
    | some s =>
      have hu := utf8_of_fromUtf8 hb
      subst hu
      have hd : hexDeserialize (.borrowedBytes (utf8 s)) = (hexFromStr (utf8 s)).mapErr DeError.custom := by
        simp only [hexDeserialize, strVisitor, hb]
      rw [hd]
      refine ⟨⟨fun h => absurd h (text s).1, fun h => absurd rfl (h.2 _)⟩, ⟨fun h => absurd h (text s).2.1, ?_⟩, fun e => ?_⟩
      · rintro ⟨b, h, hn⟩
        cases h
        exact absurd rfl (hn s)
      · rw [(text s).2.2 e]
        constructor
        · exact fun h => ⟨s, .inr rfl, h⟩
        · rintro ⟨s', h | h, he⟩
          · cases h
          · injection h with h
            rw [h]
            exact he
  | _ =>
    refine ⟨⟨fun _ => ⟨fun _ h => (by cases h), fun _ h => (by cases h)⟩, fun _ => rfl⟩, ⟨fun h => (by cases h), ?_⟩, fun e => ⟨fun h => (by cases h), ?_⟩⟩
    · rintro ⟨b, h, -⟩
      cases h
    · rintro ⟨s', h | h, -⟩ <;> cases h

/-- **C89** (round trip): what was stored is read back as the same bytes, by formats that store a struct with one field
as this field and lend texts from their input. Missing: all other formats, in which no value at all can be read
(`C89_violated`). -/
theorem C89_round_trip_partial (f : Spec.Format) (h1 : f.plainNewtypes = true) (h2 : f.texts = .lent) (bs : Bytes) :
    hexDeserialize (f.handOut (hexSerialize bs)) = .ok bs := by
  simp only [hexSerialize, Spec.Format.handOut, h1, h2, if_true]
  unfold hexDeserialize strVisitor
  dsimp only
  rw [(C24_round_trip bs).1]
  rfl

/-- In every other format every value that was stored is refused when it is read. -/
theorem C89_violated (f : Spec.Format) (h : f.plainNewtypes = false ∨ f.texts ≠ .lent) (bs : Bytes) :
    hexDeserialize (f.handOut (hexSerialize bs)) = .err .invalidType := by
  obtain ⟨p, t⟩ := f
  cases p <;> cases t <;> first | rfl | simp at h

/-- what the test of the repository stores, by a format that lends and by one that copies. -/
theorem C89_example :
    let stored := hexSerialize (utf8 "hello hex".toList)
    stored = .newtypeStruct "Hex".toList (.str "0x68656c6c6f20686578".toList) ∧
    hexDeserialize ((Spec.Format.mk true .lent).handOut stored) = .ok (utf8 "hello hex".toList) ∧
    hexDeserialize ((Spec.Format.mk true .copied).handOut stored) = .err .invalidType ∧
    hexDeserialize ((Spec.Format.mk false .lent).handOut stored) = .err .invalidType ∧
    hexDeserialize (.borrowedStr "0X0g".toList) = .err (.custom (.invalidChar 0x67 1)) := by
  refine ⟨?_, ?_, ?_, ?_, ?_⟩ <;> decide +kernel

end Verif
