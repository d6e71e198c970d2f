import Verif.Lemmas.CompoundCanonical
import Verif.Model.Serialization
set_option linter.unusedSimpArgs false
/-
Helper lemmas: what lawful methods mean for the calls of a user.
-/
namespace Zserio
open Writer Ctx

theorem Codec.Lawful.plain {k : Codec} {P : Val → Val → Prop} {closed : Bool} (h : k.Lawful P closed) {x : Val}
    {b0 : List Bool} {w' : Writer} (hw : k.writeTo x (ofBits b0) = (.ok (), w')) :
    ∃ bs, w' = ofBits (b0 ++ bs) ∧ k.sizeOf b0.length x = .ok bs.length ∧
      ∀ ps x', P x x' → x.params = .ok ps → ∀ s, (closed = true ∨ s = []) →
        Reader.Parses (k.fromReader ps) b0.length bs s x' := by
  obtain ⟨es, h1, -, h3⟩ := h none x
  rw [h1 rfl] at h3
  unfold Codec.writeTo at hw
  obtain ⟨c, w1, hw1, hw⟩ := Writer.bind_inv hw
  simp only [M.pure_apply, Prod.mk.injEq, true_and] at hw
  subst hw
  obtain ⟨bs, cs', cr', g1, g2, g3, -⟩ := h3 [] Ctx.empty Ctx.empty Ctx.empty (by simpa using allSync_empty) b0 c w1 hw1
  refine ⟨bs, g1, by simp only [Codec.sizeOf, g2, ok_bind], ?_⟩
  intro ps x' hx hp s hs
  exact Reader.Parses.map (f := fun (y : Val × Ctx) => y.1) (g3 ps x' hx hp s (hs.imp id (fun h => ⟨rfl, h⟩)))

/-- reading a whole buffer -/
theorem Reader.Parses.run {α : Type} {m : M Reader α} {bs s : List Bool} {a : α} (h : Reader.Parses m 0 bs s a)
    {r : Reader} (hb : bytesBits r.buffer = bs ++ s ++ (bytesBits r.buffer).drop (bs ++ s).length)
    (hs : r.bitsize = ((bs ++ s).length : Int)) (hp : r.pos = 0) : (m r).1 = .ok a := by
  have hlen : (bs ++ s).length ≤ 8 * r.buffer.length := by
    have := congrArg List.length hb
    rw [List.length_append, bytesBits_length] at this
    omega
  have := h r ⟨by omega, by omega⟩ hp (by
    rw [Reader.rest, hp, List.drop_zero, hb, hs, Int.toNat_natCast, List.take_left])
  rw [this]

theorem ofBits_nil : Writer.init = ofBits [] := by simp [ofBits, packBits, Writer.init]

theorem serializeToWriter_inv {k : Codec} {x x1 : Val} {w : Writer} (h : serializeToWriter k x = .ok (w, x1)) :
    (∃ e, k.initialize 0 x = .ok (e, x1)) ∧ k.writeTo x1 (ofBits []) = (.ok (), w) := by
  unfold serializeToWriter at h
  obtain ⟨⟨e, y⟩, h1, h⟩ := except_bind_ok h
  simp only at h
  rw [ofBits_nil] at h
  split at h
  · next h2 =>
    simp only [Except.ok.injEq, Prod.mk.injEq] at h
    obtain ⟨rfl, rfl⟩ := h
    exact ⟨⟨e, h1⟩, h2⟩
  · cases h

end Zserio
