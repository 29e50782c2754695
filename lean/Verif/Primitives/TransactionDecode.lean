import Verif.Primitives.Transaction
import Verif.Primitives.WitnessDecode
/-!
# The transaction decoder refines a pure parser
-/
namespace Btc

/-! ## Field parsers -/

def u32Parser : Parser UInt32 :=
  (arrayParser 4 []).mapE (fun b => .ok (UInt32.ofNat (leNat b))) id

def outPointParser : Parser OutPoint :=
  (arrayParser 36 []).mapE (fun b =>
    if h : (b.take 32).length = 32 then .ok ⟨⟨b.take 32, h⟩, UInt32.ofNat (leNat (b.drop 32))⟩
    else .error .panic) id

def amountParser : Parser Amount :=
  (arrayParser 8 []).mapE (fun b =>
    if h : leNat b ≤ MAX_MONEY then .ok ⟨leNat b, h⟩ else .error (.custom 1 (leNat b))) id

def txInParser : Parser TxIn :=
  ((seqParser (seqParser outPointParser (byteVecParser MAX_VEC_SIZE)) u32Parser).mapE
    (fun x => .ok (x.1.1, x.1.2, x.2)) id).mapE (fun x => .ok ⟨x.1, x.2.1, x.2.2, Wit.empty⟩) id

def txOutParser : Parser TxOut :=
  (seqParser amountParser (byteVecParser MAX_VEC_SIZE)).mapE (fun x => .ok ⟨x.1, x.2⟩) id

theorem u32Dec_lawful : Lawful u32Dec u32Parser := mapE_lawful (arrayDec_lawful 4 (by omega)) _ _
theorem outPointDec_lawful : Lawful outPointDec outPointParser :=
  mapE_lawful (arrayDec_lawful 36 (by omega)) _ _
theorem amountDec_lawful : Lawful amountDec amountParser :=
  mapE_lawful (arrayDec_lawful 8 (by omega)) _ _
theorem txInDec_lawful : Lawful txInDec txInParser :=
  mapE_lawful (mapE_lawful (dec2_lawful (dec2_lawful outPointDec_lawful (byteVecDec_lawful _))
    u32Dec_lawful) _ _) _ _
theorem txOutDec_lawful : Lawful txOutDec txOutParser :=
  mapE_lawful (dec2_lawful amountDec_lawful (byteVecDec_lawful _)) _ _
theorem txInsDec_lawful : Lawful txInsDec (vecParser txInParser MAX_VEC_SIZE) :=
  vecDec_lawful txInDec_lawful _
theorem txOutsDec_lawful : Lawful txOutsDec (vecParser txOutParser MAX_VEC_SIZE) :=
  vecDec_lawful txOutDec_lawful _

/-! ## The state machine -/

section
variable (U : Parser UInt32) (I : Parser (List TxIn)) (O : Parser (List TxOut)) (W : Parser Wit)

def lockP (v : UInt32) (ins : List TxIn) (outs : List TxOut) (cur : Parser UInt32) : Parser Tx :=
  cur.andThen (.tag 5) (.custom 12 5) fun lt bs => .ofEnd (txCheck ⟨v, lt, ins, outs⟩) bs

def witP (v : UInt32) (outs : List TxOut) :
    (todo donel : List TxIn) → (i : TxIn) → Parser Wit → Parser Tx
  | [], donel, i, cur => cur.andThen (.tag 4) (.custom 12 4) fun w =>
      if (donel ++ [{ i with witness := w }]).all fun i => i.witness.isEmpty then
        fun _ => .fail (.custom 11 0)
      else lockP v (donel ++ [{ i with witness := w }]) outs U
  | n :: todo, donel, i, cur => cur.andThen (.tag 4) (.custom 12 4) fun w =>
      witP v outs todo (donel ++ [{ i with witness := w }]) n W

def afterOutP (v : UInt32) (ins : List TxIn) (segwit : Bool) (outs : List TxOut) : Parser Tx :=
  match segwit, ins with
  | true, i :: t => witP U W v outs t [] i W
  | _, _ => lockP v ins outs U

def outP (v : UInt32) (ins : List TxIn) (segwit : Bool) (cur : Parser (List TxOut)) : Parser Tx :=
  cur.andThen (.tag 3) (.custom 12 3) fun outs => afterOutP U W v ins segwit outs

def in2P (v : UInt32) (cur : Parser (List TxIn)) : Parser Tx :=
  cur.andThen (.tag 2) (.custom 12 1) fun ins => outP U W v ins true O

def flagP (v : UInt32) : Parser Tx := fun bs =>
  match bs with
  | [] => .more (.custom 12 2)
  | f :: rest => if f ≠ 1 then .fail (.custom 10 f.toNat) else in2P U O W v I rest

def in1P (v : UInt32) (cur : Parser (List TxIn)) : Parser Tx :=
  cur.andThen (.tag 2) (.custom 12 1) fun ins =>
    if ins.isEmpty then flagP U I O W v else outP U W v ins false O

def verP (cur : Parser UInt32) : Parser Tx :=
  cur.andThen (.tag 1) (.custom 12 0) fun v => in1P U I O W v I
end

/-- The transaction parser. -/
def txParser : Parser Tx :=
  verP u32Parser (vecParser txInParser MAX_VEC_SIZE) (vecParser txOutParser MAX_VEC_SIZE) witParser
    u32Parser

section
variable {iu : u32Dec.S → Prop} {du : u32Dec.S → Parser UInt32}
  {ii : txInsDec.S → Prop} {di : txInsDec.S → Parser (List TxIn)}
  {io : txOutsDec.S → Prop} {do_ : txOutsDec.S → Parser (List TxOut)}
  {iw : witDec.S → Prop} {dw : witDec.S → Parser Wit}

def txInv (iu : u32Dec.S → Prop) (ii : txInsDec.S → Prop) (io : txOutsDec.S → Prop)
    (iw : witDec.S → Prop) : TxSt → Prop
  | .version s => iu s
  | .inputs _ _ s => ii s
  | .segwitFlag _ => True
  | .outputs _ _ _ s => io s
  | .witnesses _ _ _ _ _ s => iw s
  | .lockTime _ _ _ s => iu s
  | .done _ => False

def txDen (du : u32Dec.S → Parser UInt32) (di : txInsDec.S → Parser (List TxIn))
    (do_ : txOutsDec.S → Parser (List TxOut)) (dw : witDec.S → Parser Wit) : TxSt → Parser Tx
  | .version s =>
    verP (du u32Dec.init) (di txInsDec.init) (do_ txOutsDec.init) (dw witDec.init) (du s)
  | .inputs v false s =>
    in1P (du u32Dec.init) (di txInsDec.init) (do_ txOutsDec.init) (dw witDec.init) v (di s)
  | .inputs v true s =>
    in2P (du u32Dec.init) (do_ txOutsDec.init) (dw witDec.init) v (di s)
  | .segwitFlag v =>
    flagP (du u32Dec.init) (di txInsDec.init) (do_ txOutsDec.init) (dw witDec.init) v
  | .outputs v ins sw s => outP (du u32Dec.init) (dw witDec.init) v ins sw (do_ s)
  | .witnesses v outs donel cur todo s =>
    witP (du u32Dec.init) (dw witDec.init) v outs todo donel cur (dw s)
  | .lockTime v ins outs s => lockP v ins outs (du s)
  | .done tx => fun bs => .ofEnd (txCheck tx) bs

variable (Lu : LawfulWith u32Dec iu du) (Li : LawfulWith txInsDec ii di)
  (Lo : LawfulWith txOutsDec io do_) (Lw : LawfulWith witDec iw dw)
include Lu

theorem txLock_ok (v : UInt32) (ins : List TxIn) (outs : List TxOut) (s : u32Dec.S) (hs : iu s)
    (bs : Bytes) :
    PushOkQ txFin (txInv iu ii io iw) (txDen du di do_ dw) (lockP v ins outs (du s)) bs
      (txLock v ins outs s bs) := by
  unfold txLock lockP
  refine pushThen_ok Lu ?_ ?_ ?_ s hs bs
  · exact fun _ h => h
  · exact fun _ => rfl
  · exact fun lt bs => ⟨[], rfl, fun ext => rfl⟩

include Lw

theorem txWit_ok (v : UInt32) (outs : List TxOut) : ∀ (todo donel : List TxIn) (cur : TxIn)
    (s : witDec.S) (_ : iw s) (bs : Bytes),
    PushOkQ txFin (txInv iu ii io iw) (txDen du di do_ dw)
      (witP (du u32Dec.init) (dw witDec.init) v outs todo donel cur (dw s)) bs
      (txWit v outs todo donel cur s bs) := by
  intro todo
  induction todo with
  | nil =>
    intro donel cur s hs bs
    unfold txWit witP
    refine pushThen_ok Lw ?_ ?_ ?_ s hs bs
    · exact fun _ h => h
    · exact fun _ => rfl
    · intro w bs
      split
      · intro ext; rfl
      · exact txLock_ok Lu v _ outs _ Lu.init bs
  | cons n todo ih =>
    intro donel cur s hs bs
    unfold txWit witP
    refine pushThen_ok Lw ?_ ?_ ?_ s hs bs
    · exact fun _ h => h
    · exact fun _ => rfl
    · exact fun w bs => ih _ n witDec.init Lw.init bs

theorem txAfterOut_ok (v : UInt32) (ins : List TxIn) (sw : Bool) (outs : List TxOut) (bs : Bytes) :
    PushOkQ txFin (txInv iu ii io iw) (txDen du di do_ dw)
      (afterOutP (du u32Dec.init) (dw witDec.init) v ins sw outs) bs
      (txAfterOut v ins sw outs bs) := by
  match sw, ins with
  | true, i :: t => exact txWit_ok Lu Lw v outs t [] i witDec.init Lw.init bs
  | true, [] => exact txLock_ok Lu v _ outs _ Lu.init bs
  | false, _ => exact txLock_ok Lu v _ outs _ Lu.init bs

include Lo

theorem txOutp_ok (v : UInt32) (ins : List TxIn) (sw : Bool) (s : txOutsDec.S) (hs : io s)
    (bs : Bytes) :
    PushOkQ txFin (txInv iu ii io iw) (txDen du di do_ dw)
      (outP (du u32Dec.init) (dw witDec.init) v ins sw (do_ s)) bs (txOutp v ins sw s bs) := by
  unfold txOutp outP
  refine pushThen_ok Lo ?_ ?_ ?_ s hs bs
  · exact fun _ h => h
  · exact fun _ => rfl
  · exact fun outs bs => txAfterOut_ok Lu Lw v ins sw outs bs

include Li

theorem txIn2_ok (v : UInt32) (s : txInsDec.S) (hs : ii s) (bs : Bytes) :
    PushOkQ txFin (txInv iu ii io iw) (txDen du di do_ dw)
      (in2P (du u32Dec.init) (do_ txOutsDec.init) (dw witDec.init) v (di s)) bs (txIn2 v s bs) := by
  unfold txIn2 in2P
  refine pushThen_ok Li ?_ ?_ ?_ s hs bs
  · exact fun _ h => h
  · exact fun _ => rfl
  · exact fun ins bs => txOutp_ok Lu Lo Lw v ins true _ Lo.init bs

theorem txFlag_ok (v : UInt32) (bs : Bytes) :
    PushOkQ txFin (txInv iu ii io iw) (txDen du di do_ dw)
      (flagP (du u32Dec.init) (di txInsDec.init) (do_ txOutsDec.init) (dw witDec.init) v) bs
      (txFlag v bs) := by
  match bs with
  | [] => exact ⟨[], rfl, trivial, fun ext => rfl, fun h => absurd rfl h⟩
  | f :: rest =>
    by_cases hf : f = 1
    · simp only [txFlag, hf]
      rw [if_neg (by simp)]
      exact (txIn2_ok Lu Li Lo Lw v _ Li.init rest).prepend (c := [1]) rfl
        (fun ext => by simp [flagP])
    · simp only [txFlag]
      rw [if_pos hf]
      intro ext
      simp [flagP, hf]

theorem txIn1_ok (v : UInt32) (s : txInsDec.S) (hs : ii s) (bs : Bytes) :
    PushOkQ txFin (txInv iu ii io iw) (txDen du di do_ dw)
      (in1P (du u32Dec.init) (di txInsDec.init) (do_ txOutsDec.init) (dw witDec.init) v (di s)) bs
      (txIn1 v s bs) := by
  unfold txIn1 in1P
  refine pushThen_ok Li ?_ ?_ ?_ s hs bs
  · exact fun _ h => h
  · exact fun _ => rfl
  · intro ins bs
    split
    · exact txFlag_ok Lu Li Lo Lw v bs
    · exact txOutp_ok Lu Lo Lw v ins false _ Lo.init bs

theorem txVer_ok (s : u32Dec.S) (hs : iu s) (bs : Bytes) :
    PushOkQ txFin (txInv iu ii io iw) (txDen du di do_ dw)
      (verP (du u32Dec.init) (di txInsDec.init) (do_ txOutsDec.init) (dw witDec.init) (du s)) bs
      (txVer s bs) := by
  unfold txVer verP
  refine pushThen_ok Lu ?_ ?_ ?_ s hs bs
  · exact fun _ h => h
  · exact fun _ => rfl
  · exact fun v bs => txIn1_ok Lu Li Lo Lw v _ Li.init bs

theorem txPush_ok (s : TxSt) (bs : Bytes) (hs : txInv iu ii io iw s) :
    PushOkQ txFin (txInv iu ii io iw) (txDen du di do_ dw) (txDen du di do_ dw s) bs
      (txPush s bs) := by
  match s with
  | .version s => exact txVer_ok Lu Li Lo Lw s hs bs
  | .inputs v false s => exact txIn1_ok Lu Li Lo Lw v s hs bs
  | .inputs v true s => exact txIn2_ok Lu Li Lo Lw v s hs bs
  | .segwitFlag v => exact txFlag_ok Lu Li Lo Lw v bs
  | .outputs v ins sw s => exact txOutp_ok Lu Lo Lw v ins sw s hs bs
  | .witnesses v outs donel cur todo s => exact txWit_ok Lu Lw v outs todo donel cur s hs bs
  | .lockTime v ins outs s => exact txLock_ok Lu v ins outs s hs bs
  | .done tx => exact hs.elim

omit Lu Li Lo Lw in
theorem ofEnd_le {α : Type} {r : Except DErr α} {bs : Bytes} {a : α} {rest : Bytes}
    (h : POut.ofEnd r bs = .done a rest) : rest.length ≤ bs.length := by
  cases r with
  | ok x => cases h; exact Nat.le_refl _
  | error e => cases h

omit Li Lo Lw in
theorem lockP_le (v : UInt32) (ins : List TxIn) (outs : List TxOut) (s : u32Dec.S) (hs : iu s)
    (bs : Bytes) (tx : Tx) (rest : Bytes) (h : lockP v ins outs (du s) bs = .done tx rest) :
    u32Dec.limit s + rest.length ≤ bs.length :=
  andThen_limit Lu (fun _ _ _ _ h => ofEnd_le h) s hs bs tx rest h

omit Li Lo in
theorem witP_le (v : UInt32) (outs : List TxOut) : ∀ (todo donel : List TxIn) (cur : TxIn)
    (s : witDec.S) (_ : iw s) (bs : Bytes) (tx : Tx) (rest : Bytes),
    witP (du u32Dec.init) (dw witDec.init) v outs todo donel cur (dw s) bs = .done tx rest →
    witDec.limit s + rest.length ≤ bs.length := by
  intro todo
  induction todo with
  | nil =>
    intro donel cur s hs bs tx rest h
    refine andThen_limit Lw (fun w bs b rest h => ?_) s hs bs tx rest h
    split at h
    · cases h
    · have := lockP_le Lu _ _ _ _ Lu.init _ _ _ h
      omega
  | cons n todo ih =>
    intro donel cur s hs bs tx rest h
    refine andThen_limit Lw (fun w bs b rest h => ?_) s hs bs tx rest h
    have := ih _ _ _ Lw.init _ _ _ h
    omega

omit Li in
theorem outP_le (v : UInt32) (ins : List TxIn) (sw : Bool) (s : txOutsDec.S) (hs : io s)
    (bs : Bytes) (tx : Tx) (rest : Bytes)
    (h : outP (du u32Dec.init) (dw witDec.init) v ins sw (do_ s) bs = .done tx rest) :
    txOutsDec.limit s + rest.length ≤ bs.length := by
  refine andThen_limit Lo (fun outs bs b rest h => ?_) s hs bs tx rest h
  match sw, ins with
  | true, i :: t => have := witP_le Lu Lw v outs t [] i _ Lw.init _ _ _ h; omega
  | true, [] => have := lockP_le Lu _ _ _ _ Lu.init _ _ _ h; omega
  | false, _ => have := lockP_le Lu _ _ _ _ Lu.init _ _ _ h; omega

theorem in2P_le (v : UInt32) (s : txInsDec.S) (hs : ii s) (bs : Bytes) (tx : Tx) (rest : Bytes)
    (h : in2P (du u32Dec.init) (do_ txOutsDec.init) (dw witDec.init) v (di s) bs = .done tx rest) :
    txInsDec.limit s + rest.length ≤ bs.length := by
  refine andThen_limit Li (fun ins bs b rest h => ?_) s hs bs tx rest h
  have := outP_le Lu Lo Lw _ _ _ _ Lo.init _ _ _ h
  omega

theorem flagP_le (v : UInt32) (bs : Bytes) (tx : Tx) (rest : Bytes)
    (h : flagP (du u32Dec.init) (di txInsDec.init) (do_ txOutsDec.init) (dw witDec.init) v bs
      = .done tx rest) : 1 + rest.length ≤ bs.length := by
  match bs with
  | [] => cases h
  | f :: r =>
    simp only [flagP] at h
    split at h
    · cases h
    · have := in2P_le Lu Li Lo Lw _ _ Li.init _ _ _ h
      simp; omega

theorem in1P_le (v : UInt32) (s : txInsDec.S) (hs : ii s) (bs : Bytes) (tx : Tx) (rest : Bytes)
    (h : in1P (du u32Dec.init) (di txInsDec.init) (do_ txOutsDec.init) (dw witDec.init) v (di s) bs
      = .done tx rest) : txInsDec.limit s + rest.length ≤ bs.length := by
  refine andThen_limit Li (fun ins bs b rest h => ?_) s hs bs tx rest h
  split at h
  · have := flagP_le Lu Li Lo Lw _ _ _ _ h; omega
  · have := outP_le Lu Lo Lw _ _ _ _ Lo.init _ _ _ h; omega

theorem txDec_lawful' : LawfulWith txDec (txInv iu ii io iw) (txDen du di do_ dw) where
  init := Lu.init
  more := fun (s : TxSt) hs => by
    match s with
    | .version s => exact ⟨(Lu.more s hs).1, _, andThen_nil Lu s hs, rfl⟩
    | .inputs v false s => exact ⟨(Li.more s hs).1, _, andThen_nil Li s hs, rfl⟩
    | .inputs v true s => exact ⟨(Li.more s hs).1, _, andThen_nil Li s hs, rfl⟩
    | .segwitFlag v => exact ⟨Nat.one_pos, _, rfl, rfl⟩
    | .outputs v ins sw s => exact ⟨(Lo.more s hs).1, _, andThen_nil Lo s hs, rfl⟩
    | .witnesses v outs donel cur [] s => exact ⟨(Lw.more s hs).1, _, andThen_nil Lw s hs, rfl⟩
    | .witnesses v outs donel cur (_ :: _) s =>
      exact ⟨(Lw.more s hs).1, _, andThen_nil Lw s hs, rfl⟩
    | .lockTime v ins outs s => exact ⟨(Lu.more s hs).1, _, andThen_nil Lu s hs, rfl⟩
    | .done tx => exact hs.elim
  push := fun (s : TxSt) bs hs => (pushOk_iff (d := txDec)).mpr (txPush_ok Lu Li Lo Lw s bs hs)
  limit := fun (s : TxSt) bs a rest hs h => by
    match s with
    | .version s =>
      refine andThen_limit Lu (fun v bs b rest h => ?_) s hs bs a rest h
      have := in1P_le Lu Li Lo Lw _ _ Li.init _ _ _ h
      omega
    | .inputs v false s => exact in1P_le Lu Li Lo Lw v s hs bs a rest h
    | .inputs v true s => exact in2P_le Lu Li Lo Lw v s hs bs a rest h
    | .segwitFlag v => exact flagP_le Lu Li Lo Lw v bs a rest h
    | .outputs v ins sw s => exact outP_le Lu Lo Lw v ins sw s hs bs a rest h
    | .witnesses v outs donel cur todo s => exact witP_le Lu Lw v outs todo donel cur s hs bs a rest h
    | .lockTime v ins outs s => exact lockP_le Lu v ins outs s hs bs a rest h
    | .done tx => exact hs.elim

end

theorem txDec_lawful : Lawful txDec txParser := by
  obtain ⟨iu, du, Lu, hu⟩ := u32Dec_lawful
  obtain ⟨ii, di, Li, hi⟩ := txInsDec_lawful
  obtain ⟨io, do_, Lo, ho⟩ := txOutsDec_lawful
  obtain ⟨iw, dw, Lw, hw⟩ := witDec_lawful
  refine ⟨_, _, txDec_lawful' Lu Li Lo Lw, ?_⟩
  show verP (du u32Dec.init) (di txInsDec.init) (do_ txOutsDec.init) (dw witDec.init) (du u32Dec.init)
    = txParser
  rw [hu, hi, ho, hw]
  rfl

end Btc
