import Verif.Model.Utf8
import Mathlib.Tactic.Ring
set_option linter.unusedSimpArgs false
namespace Zserio

theorem toNat_ofNat_lt {n : Nat} (h : n < 256) : (UInt8.ofNat n).toNat = n := by
  rw [UInt8.toNat_ofNat', Nat.mod_eq_of_lt h]

theorem except_bind_ok {α β : Type} {x : Except Err α} {f : α → Except Err β} {b : β}
    (h : (x >>= f) = .ok b) : ∃ a, x = .ok a ∧ f a = .ok b := by
  cases x with
  | error e => simp [bind, Except.bind] at h
  | ok a => exact ⟨a, rfl, h⟩

theorem utf8Decode_encodeChar {c : Nat} {b rest : List UInt8} {cs : PyStr} (h : utf8EncodeChar c = .ok b)
    (hr : utf8Decode rest = .ok cs) : utf8Decode (b ++ rest) = .ok (c :: cs) := by
  unfold utf8EncodeChar at h
  split at h
  · rename_i h1
    injection h with h; subst h
    rw [List.singleton_append, utf8Decode.eq_def]
    simp only [toNat_ofNat_lt (show c < 256 by omega)]
    rw [if_pos h1, hr]
    rfl
  split at h
  · rename_i h1 h2
    injection h with h; subst h
    rw [List.cons_append, utf8Decode.eq_def]
    simp only [toNat_ofNat_lt (show 0xC0 + c / 64 < 256 by omega), List.cons_append, List.nil_append,
      toNat_ofNat_lt (show 0x80 + c % 64 < 256 by omega), isCont]
    rw [if_neg (by omega), if_neg (by omega), if_pos (by omega)]
    have e : (192 + c / 64 - 192) * 64 + (128 + c % 64 - 128) = c := by omega
    rw [e, if_pos (by simp; omega), hr]
    rfl
  split at h
  · rename_i h1 h2 h3
    split at h
    · simp at h
    rename_i h4
    injection h with h; subst h
    rw [List.cons_append, utf8Decode.eq_def]
    simp only [toNat_ofNat_lt (show 0xE0 + c / 4096 < 256 by omega), List.cons_append, List.nil_append,
      toNat_ofNat_lt (show 0x80 + c / 64 % 64 < 256 by omega),
      toNat_ofNat_lt (show 0x80 + c % 64 < 256 by omega), isCont]
    rw [if_neg (by omega), if_neg (by omega), if_neg (by omega), if_pos (by omega)]
    have e : (224 + c / 4096 - 224) * 4096 + (128 + c / 64 % 64 - 128) * 64 + (128 + c % 64 - 128) = c := by omega
    rw [e, if_pos (by simp [isScalar]; omega), hr]
    rfl
  split at h
  · rename_i h1 h2 h3 h4
    injection h with h; subst h
    rw [List.cons_append, utf8Decode.eq_def]
    simp only [toNat_ofNat_lt (show 0xF0 + c / 262144 < 256 by omega), List.cons_append, List.nil_append,
      toNat_ofNat_lt (show 0x80 + c / 4096 % 64 < 256 by omega),
      toNat_ofNat_lt (show 0x80 + c / 64 % 64 < 256 by omega),
      toNat_ofNat_lt (show 0x80 + c % 64 < 256 by omega), isCont]
    rw [if_neg (by omega), if_neg (by omega), if_neg (by omega), if_neg (by omega), if_pos (by omega)]
    have e : (240 + c / 262144 - 240) * 262144 + (128 + c / 4096 % 64 - 128) * 4096 +
      (128 + c / 64 % 64 - 128) * 64 + (128 + c % 64 - 128) = c := by omega
    rw [e, if_pos (by simp; omega), hr]
    rfl
  · simp at h

/-- Decoding is the left inverse of encoding. -/
theorem utf8Decode_encode {s : PyStr} {l : List UInt8} (h : utf8Encode s = .ok l) : utf8Decode l = .ok s := by
  induction s generalizing l with
  | nil =>
    simp [utf8Encode] at h
    subst h
    rw [utf8Decode]
  | cons c cs ih =>
    rw [utf8Encode] at h
    obtain ⟨b, hb, h⟩ := except_bind_ok h
    obtain ⟨bs, hbs, h⟩ := except_bind_ok h
    injection h with h
    subst h
    exact utf8Decode_encodeChar hb (ih hbs)

/-- Encoding succeeds exactly on strings without surrogates. -/
theorem utf8Encode_isOk_iff (s : PyStr) : (∃ l, utf8Encode s = .ok l) ↔ ∀ c ∈ s, isScalar c = true := by
  have hc : ∀ c, (∃ b, utf8EncodeChar c = .ok b) ↔ isScalar c = true := by
    intro c
    unfold utf8EncodeChar isScalar
    split_ifs <;> simp <;> omega
  induction s with
  | nil => simp [utf8Encode]
  | cons c cs ih =>
    rw [List.forall_mem_cons, ← hc]
    refine Iff.trans ?_ (and_congr_right fun _ => ih)
    constructor
    · rintro ⟨l, h⟩
      rw [utf8Encode] at h
      obtain ⟨b, hb, h⟩ := except_bind_ok h
      obtain ⟨bs, hbs, h⟩ := except_bind_ok h
      exact ⟨⟨b, hb⟩, ⟨bs, hbs⟩⟩
    · rintro ⟨⟨b, hb⟩, ⟨bs, hbs⟩⟩
      exact ⟨b ++ bs, by rw [utf8Encode, hb, hbs]; rfl⟩

end Zserio
