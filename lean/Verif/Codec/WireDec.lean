import Verif.Codec.Wire
import Verif.Codec.Drivers
import Verif.Codec.CompactSize
/-! # From wire formats of parsers to statements about decoders -/
namespace Btc

/-- A lawful decoder whose parser has wire format `enc` on `ok` accepts exactly the encodings. -/
theorem Wire.dec {α : Type} {d : Dec α} {P : Parser α} {enc : α → Bytes} {ok : α → Prop} (hl : Lawful d P) (hw : Wire P enc ok) :
    (∀ bs a, d.decodeSlice bs = .ok a ↔ ok a ∧ bs = enc a)
    ∧ (∀ bs a rest, d.decodeSliceUnbounded bs = .ok a rest ↔ ok a ∧ bs = enc a ++ rest) := by
  obtain ⟨inv, den, L, hP⟩ := hl
  constructor
  · intro bs a
    rw [L.decodeSlice_ok_iff, hP, hw]
    simp
  · intro bs a rest
    rw [L.decodeSliceUnbounded_spec, hP, ← hw]
    cases P bs with
    | done x r => simp [POut.outcome]
    | more e => simp [POut.outcome]
    | fail e => simp [POut.outcome]

theorem cs_wire (lim : Nat) : Wire (csParser (csEnd lim)) csEncode (fun v => v ≤ lim ∧ v < 2 ^ 64) := by
  intro bs v rest
  rw [csParser_lim_done]
  exact ⟨fun ⟨a, b, c⟩ => ⟨⟨c, b⟩, a⟩, fun ⟨⟨c, b⟩, a⟩ => ⟨a, b, c⟩⟩

theorem csU64_wire : Wire (csParser csDecode) csEncode (fun v => v < 2 ^ 64) := by
  intro bs v rest
  rw [csParser_u64_done]
  exact And.comm

end Btc
