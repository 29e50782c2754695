import Verif.Primitives.Block
/-!
# Header and block decoders refine parsers; the encodings
-/
namespace Btc

def hash32Parser : Parser (Arr 32) :=
  (arrayParser 32 []).mapE (fun b => if h : b.length = 32 then .ok ⟨b, h⟩ else .error .panic) id

def seq3 {α β γ : Type} (a : Parser α) (b : Parser β) (c : Parser γ) : Parser (α × β × γ) :=
  (seqParser (seqParser a b) c).mapE (fun x => .ok (x.1.1, x.1.2, x.2)) id

def headerParser : Parser Header :=
  ((seqParser (seq3 u32Parser hash32Parser hash32Parser)
    (seq3 u32Parser u32Parser (arrayParser 4 []))).mapE
      (fun x => .ok (x.1.1, x.1.2.1, x.1.2.2, x.2.1, x.2.2.1, x.2.2.2)) id).mapE
    (fun x => .ok ⟨x.1, x.2.1, x.2.2.1, x.2.2.2.1, x.2.2.2.2.1, UInt32.ofNat (leNat x.2.2.2.2.2)⟩) id

def blockParser : Parser Block :=
  (seqParser headerParser (vecParser txParser MAX_VEC_SIZE)).mapE (fun x => .ok ⟨x.1, x.2⟩) id

theorem hash32Dec_lawful : Lawful hash32Dec hash32Parser :=
  mapE_lawful (arrayDec_lawful 32 (by omega)) _ _

theorem dec3_lawful {α β γ : Type} {a : Dec α} {b : Dec β} {c : Dec γ} {A : Parser α} {B : Parser β}
    {C : Parser γ} (ha : Lawful a A) (hb : Lawful b B) (hc : Lawful c C) :
    Lawful (dec3 a b c) (seq3 A B C) :=
  mapE_lawful (dec2_lawful (dec2_lawful ha hb) hc) _ _

theorem headerDec_lawful : Lawful headerDec headerParser :=
  mapE_lawful (mapE_lawful (dec2_lawful (dec3_lawful u32Dec_lawful hash32Dec_lawful hash32Dec_lawful)
    (dec3_lawful u32Dec_lawful u32Dec_lawful (arrayDec_lawful 4 (by omega)))) _ _) _ _

theorem blockDec_lawful : Lawful blockDec blockParser :=
  mapE_lawful (dec2_lawful headerDec_lawful (vecDec_lawful txDec_lawful _)) _ _

/-- Serialization of a header. -/
def headerBytes (h : Header) : Bytes :=
  u32le h.version ++ h.prev.1 ++ h.merkleRoot.1 ++ u32le h.time ++ u32le h.bits ++ u32le h.nonce

/-- Serialization of a block. -/
def blockBytes (b : Block) : Bytes :=
  headerBytes b.header ++ (csEncode b.txs.length ++ (b.txs.map fun tx => txBytes tx.usesSegwit tx).flatten)

theorem headerBytes_length (h : Header) : (headerBytes h).length = 80 := by
  simp [headerBytes, h.prev.2, h.merkleRoot.2]

theorem hash32_wire : Wire hash32Parser (fun a => a.1) (fun _ => True) := by
  refine (Wire.array 32).mapE ?_ ?_
  · intro a b ha h
    rw [dif_pos ha] at h
    cases h
    exact ⟨trivial, rfl⟩
  · intro b _
    exact ⟨b.1, b.2, dif_pos b.2⟩

theorem Wire.seq3 {α β γ : Type} {P : Parser α} {f : α → Bytes} {p : α → Prop} {Q : Parser β}
    {g : β → Bytes} {q : β → Prop} {R : Parser γ} {k : γ → Bytes} {r : γ → Prop}
    (hP : Wire P f p) (hQ : Wire Q g q) (hR : Wire R k r) :
    Wire (seq3 P Q R) (fun x => f x.1 ++ g x.2.1 ++ k x.2.2) (fun x => p x.1 ∧ q x.2.1 ∧ r x.2.2) := by
  refine ((hP.seq hQ).seq hR).mapE ?_ ?_
  · rintro ⟨⟨a, b⟩, c⟩ y ⟨⟨h1, h2⟩, h3⟩ hy
    cases hy
    exact ⟨⟨h1, h2, h3⟩, rfl⟩
  · rintro ⟨a, b, c⟩ ⟨h1, h2, h3⟩
    exact ⟨((a, b), c), ⟨⟨h1, h2⟩, h3⟩, rfl⟩

theorem header_wire : Wire headerParser headerBytes (fun _ => True) := by
  refine ((((u32_wire.seq3 hash32_wire hash32_wire).seq
    (u32_wire.seq3 u32_wire (Wire.array 4)))).mapE
    (enc' := fun x => u32le x.1 ++ x.2.1.1 ++ x.2.2.1.1 ++ u32le x.2.2.2.1 ++ u32le x.2.2.2.2.1 ++
      x.2.2.2.2.2) (ok' := fun x => x.2.2.2.2.2.length = 4) ?_ ?_).mapE ?_ ?_
  · rintro ⟨⟨a, b, c⟩, d, e, f⟩ y ⟨_, _, _, h⟩ hy
    cases hy
    exact ⟨h, by simp⟩
  · rintro ⟨a, b, c, d, e, f⟩ h
    exact ⟨((a, b, c), (d, e, f)), ⟨⟨trivial, trivial, trivial⟩, trivial, trivial, h⟩, rfl⟩
  · rintro ⟨a, b, c, d, e, f⟩ y h hy
    cases hy
    refine ⟨trivial, ?_⟩
    simp only [headerBytes]
    rw [u32le_ofNat_leNat f h]
  · rintro h _
    refine ⟨(h.version, h.prev, h.merkleRoot, h.time, h.bits, u32le h.nonce), u32le_length _, ?_⟩
    simp only [ofNat_leNat_u32le]

/-- What the block decoder accepts. -/
def BlockOk (b : Block) : Prop := b.txs.length ≤ MAX_VEC_SIZE ∧ ∀ tx ∈ b.txs, TxOk tx

theorem block_wire : Wire blockParser blockBytes BlockOk := by
  refine (header_wire.seq (vec_wire tx_wire)).mapE ?_ ?_
  · rintro ⟨h, l⟩ y ⟨_, h2⟩ hy
    cases hy
    exact ⟨h2, rfl⟩
  · rintro ⟨h, l⟩ hb
    exact ⟨(h, l), ⟨trivial, hb⟩, rfl⟩

end Btc
