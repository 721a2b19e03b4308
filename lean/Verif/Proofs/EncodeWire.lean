import Verif.Proofs.EncodeShape
import Verif.Spec.Wire

/-! Helper lemmas: what the encoder writes is in the grammar of `Spec/Wire.lean`. -/

namespace V8
open Spec

/-- What `w` adds when no tags are excluded satisfies `P`. -/
def Writes (P : Bytes → Prop) (w : Wr) : Prop :=
  ∀ ws ws', ws.allowed = none → w ws = .ok ws' → ws'.allowed = none ∧ ∃ b, ws'.data = ws.data ++ b ∧ P b

def Cat (P Q : Bytes → Prop) (b : Bytes) : Prop := ∃ x y, b = x ++ y ∧ P x ∧ Q y

theorem Writes.imp {P Q : Bytes → Prop} {w : Wr} (h : Writes P w) (hi : ∀ b, P b → Q b) : Writes Q w := by
  intro ws ws' ha hw
  obtain ⟨h1, b, h2, h3⟩ := h ws ws' ha hw
  exact ⟨h1, b, h2, hi b h3⟩

theorem Writes.bind {P Q : Bytes → Prop} {f : Wr} {g : WS → Except EErr WS} (hf : Writes P f) (hg : Writes Q g) :
    Writes (Cat P Q) (fun ws => f ws >>= g) := by
  intro ws ws' ha h
  obtain ⟨w1, h1, h2⟩ := Except.bind_eq_ok h
  obtain ⟨g1, b, g2, g3⟩ := hf _ _ ha h1
  obtain ⟨g4, c, g5, g6⟩ := hg _ _ g1 h2
  exact ⟨g4, b ++ c, by rw [g5, g2, List.append_assoc], b, c, rfl, g3, g6⟩

/-- A part that writes nothing first. -/
theorem Writes.after {P : Bytes → Prop} {f : Wr} {g : WS → Except EErr WS} (hf : Writes (· = []) f) (hg : Writes P g) :
    Writes P (fun ws => f ws >>= g) :=
  (hf.bind hg).imp fun b hb => by
    obtain ⟨x, y, rfl, rfl, h⟩ := hb
    exact h

theorem writes_emit (bs : Bytes) : Writes (· = bs) (emit bs) := by
  intro ws ws' ha h
  cases h
  exact ⟨ha, bs, rfl, rfl⟩

theorem writes_emitE {r : Except EErr Bytes} {P : Bytes → Prop} (hr : ∀ bs, r = .ok bs → P bs) : Writes P (emitE r) := by
  intro ws ws' ha h
  unfold emitE at h
  split at h
  · cases h; exact ⟨ha, _, rfl, hr _ rfl⟩
  · cases h

theorem writes_tag (t : Tag) : Writes (· = [t.byte]) (writeTag t) := by
  intro ws ws' ha h
  unfold writeTag at h
  rw [ha] at h
  cases h
  exact ⟨ha, _, rfl, rfl⟩

theorem writes_tagged {t : Tag} {r : Except EErr Bytes} {P : Bytes → Prop} (hr : ∀ bs, r = .ok bs → P (t.byte :: bs)) :
    Writes P (writeTagged t r) := by
  intro ws ws' ha h
  unfold writeTagged at h
  split at h
  · rename_i bs
    obtain ⟨h1, b, h2, x, y, h3, h4, h5⟩ := (writes_tag t).bind (writes_emit bs) ws ws' ha h
    refine ⟨h1, _, h2, ?_⟩
    rw [h3, h4, h5]
    exact hr bs rfl
  · cases h

theorem writes_constant {t : Tag} : Writes (· = [t.byte]) (writeConstant t) := by
  intro ws ws' ha h
  unfold writeConstant at h
  obtain ⟨w1, h1, h2⟩ := Except.bind_eq_ok h
  cases h2
  unfold writeTag at h1
  simp only at h1
  split at h1
  · cases h1; exact ⟨rfl, _, rfl, rfl⟩
  · cases h1

theorem writes_record (x : Val) : Writes (· = []) (recordRef x) := by
  intro ws ws' ha h
  cases h
  exact ⟨ha, [], by simp, rfl⟩

theorem writes_mark : Writes (· = []) markSkew := by
  intro ws ws' ha h
  cases h
  exact ⟨ha, [], by simp, rfl⟩

theorem writes_note (n : Nat) : Writes (· = []) (noteRef n) := by
  intro ws ws' ha h
  cases h
  exact ⟨ha, [], by simp, rfl⟩

/-! ## Payloads -/

theorem text_wire {s : Str} {bs : Bytes} (h : writeStringUtf8 s = .ok bs) : WireText bs := by
  unfold writeStringUtf8 at h
  split at h
  · cases h
  · rename_i b hb; cases h; exact .mk s b hb

theorem big_wire {n : Int} {bs : Bytes} (h : writeBigint n = .ok bs) : WireBig bs := by
  unfold writeBigint at h
  simp only at h
  split at h
  · cases h
  · cases h
    have := WireBig.mk (if n < 0 then 1 else 0) (toLE ((bitLength n.natAbs + 8) / 8) n.natAbs) (by split <;> omega)
    rw [toLE_length, Nat.mul_comm] at this
    exact this

theorem uint32_wire {n : Int} {bs : Bytes} (h : writeUint32 n = .ok bs) : ∃ k : Nat, k < 2 ^ 32 ∧ n = k ∧ bs = writeVarint k := by
  have hn : 0 ≤ n := by
    unfold writeUint32 at h
    split at h
    · cases h
    · rename_i hc
      simp [inUint32] at hc
      exact hc.1
  obtain ⟨k, rfl⟩ := Int.eq_ofNat_of_zero_le hn
  obtain ⟨h1, h2⟩ := writeUint32_eq h
  exact ⟨k, h1, rfl, h2⟩

theorem double_length (x : F64) : (writeDouble x).length = 8 := by simp [writeDouble]

theorem int32_wire {n : Int} {bs : Bytes} (h : writeInt32 n = .ok bs) : ∃ k, bs = writeVarint k := by
  unfold writeInt32 at h
  split at h
  · cases h
  · unfold writeZigzag writeVarintInt at h
    split at h
    · cases h
    · cases h; exact ⟨_, rfl⟩

theorem latin1_wire {s : Str} {bs : Bytes} (h : writeStringOneByte s = .ok bs) :
    ∃ b, latin1Encode s = some b ∧ bs = writeVarint b.length ++ b := by
  unfold writeStringOneByte at h
  split at h
  · cases h
  · rename_i b hb; cases h; exact ⟨b, hb, rfl⟩

/-! ## Keys -/

/-- What an int or a string writes when number and string tags are allowed. -/
theorem key_wire {env : EEnv} {rec next : Val → Wr} {k : PKey} {ws ws' : WS}
    (ha : ws.allowed = none ∨ ws.allowed = some jsObjectKeyTags)
    (h : tagWriter env rec k.toVal next ws = .ok ws') (hint : ws.allowed = none → ∃ s, k = .name s) :
    ∃ b, ws'.data = ws.data ++ b ∧ WireKey b := by
  have tag : ∀ t : Tag, t ∈ jsObjectKeyTags → ∀ {ws1 : WS}, writeTag t ws = .ok ws1 → ws1.data = ws.data ++ [t.byte] := by
    intro t ht ws1 h
    unfold writeTag at h
    rcases ha with ha | ha
    · rw [ha] at h; cases h; rfl
    · rw [ha] at h
      simp only at h
      split at h
      · cases h; rfl
      · cases h
  have tagged : ∀ (t : Tag) (r : Except EErr Bytes), t ∈ jsObjectKeyTags → writeTagged t r ws = .ok ws' →
      ∃ bs, r = .ok bs ∧ ws'.data = ws.data ++ t.byte :: bs := by
    intro t r ht h
    unfold writeTagged at h
    split at h
    · rename_i bs
      obtain ⟨w1, h1, h2⟩ := Except.bind_eq_ok h
      cases h2
      exact ⟨bs, rfl, by simp [tag t ht h1]⟩
    · cases h
  cases k with
  | name s =>
    obtain ⟨bs, h1, h2⟩ := tagged _ _ (by decide) (show writeTagged .kUtf8String (writeStringUtf8 s) ws = .ok ws' from h)
    exact ⟨_, h2, .utf8 bs (text_wire h1)⟩
  | idx n =>
    have hk : ws.allowed = some jsObjectKeyTags := ha.resolve_left fun h => by obtain ⟨s, hs⟩ := hint h; cases hs
    have h : serializeInt n ws = .ok ws' := h
    unfold serializeInt at h
    split at h
    · obtain ⟨bs, h1, h2⟩ := tagged _ _ (by decide) h
      obtain ⟨m, h3, _, rfl⟩ := uint32_wire h1
      exact ⟨_, h2, .uint32 m h3⟩
    · split at h
      · obtain ⟨bs, h1, h2⟩ := tagged _ _ (by decide) h
        obtain ⟨m, rfl⟩ := int32_wire h1
        exact ⟨_, h2, .int32 m⟩
      · split at h
        · unfold writeDoubleTagged at h
          obtain ⟨w1, h1, h2⟩ := Except.bind_eq_ok h
          cases h2
          refine ⟨Tag.kDouble.byte :: writeDouble (doubleOfInt n), by simp [tag .kDouble (by decide) h1], .double _ (double_length _)⟩
        · obtain ⟨bs, h1, h2⟩ := tagged _ _ (by decide) h
          unfold bigKeyPayload at h1
          split at h1
          · cases h1
          · obtain ⟨b, h3, rfl⟩ := latin1_wire h1
            exact ⟨_, h2, .latin1 _ b h3⟩

/-! ## Nested values -/

/-- The values `rec` writes are in the grammar, and so are keys. -/
structure WireRec (fs : Features) (rec : Val → Wr) : Prop where
  val : ∀ v, Writes (Wire fs) (rec v)
  key : ∀ (k : PKey) ws ws', ws.allowed = some jsObjectKeyTags → rec k.toVal ws = .ok ws' →
    ∃ b, ws'.data = ws.data ++ b ∧ WireKey b

section
variable {fs : Features} {rec : Val → Wr} (hrec : WireRec fs rec)
include hrec

theorem writes_vals : ∀ l : List Val, Writes (fun b => ∃ ms : List Bytes, ms.length = l.length ∧ (∀ m ∈ ms, Wire fs m) ∧ b = ms.flatten)
    (writeVals rec l)
  | [] => by
    intro ws ws' ha h
    cases h
    exact ⟨ha, [], by simp, [], by simp⟩
  | v :: t => by
    refine ((hrec.val v).bind (writes_vals t)).imp ?_
    rintro b ⟨x, y, rfl, h1, ms, h2, h3, rfl⟩
    exact ⟨x :: ms, by simp [h2], by simpa using ⟨h1, h3⟩, by simp⟩

theorem writes_entries : ∀ l : List (Val × Val), Writes (fun b => ∃ es : List (Bytes × Bytes), es.length = l.length ∧
    (∀ e ∈ es, Wire fs e.1) ∧ (∀ e ∈ es, Wire fs e.2) ∧ b = es.flatMap (fun e => e.1 ++ e.2)) (writeEntries rec l)
  | [] => by
    intro ws ws' ha h
    cases h
    exact ⟨ha, [], by simp, [], by simp⟩
  | (k, v) :: t => by
    refine ((hrec.val k).bind ((hrec.val v).bind (writes_entries t))).imp ?_
    rintro b ⟨x, _, rfl, h1, y, z, rfl, h2, es, h3, h4, h5, rfl⟩
    refine ⟨(x, y) :: es, by simp [h3], ?_, ?_, by simp⟩
    · intro e he
      rcases List.mem_cons.mp he with rfl | he
      · exact h1
      · exact h4 e he
    · intro e he
      rcases List.mem_cons.mp he with rfl | he
      · exact h2
      · exact h5 e he

theorem writes_key (k : PKey) : Writes WireKey (writeKey rec k.toVal) := by
  intro ws ws' ha h
  unfold writeKey at h
  obtain ⟨w1, h1, h2⟩ := Except.bind_eq_ok h
  cases h2
  obtain ⟨b, h3, h4⟩ := hrec.key k _ _ rfl h1
  exact ⟨rfl, b, h3, h4⟩

theorem writes_props : ∀ l : List (Val × Val), (∀ e ∈ l, ∃ k : PKey, e.1 = k.toVal) → Writes (fun b => ∃ es : List (Bytes × Bytes),
    es.length = l.length ∧ (∀ e ∈ es, WireKey e.1) ∧ (∀ e ∈ es, Wire fs e.2) ∧ b = es.flatMap (fun e => e.1 ++ e.2)) (writeProps rec l)
  | [], _ => by
    intro ws ws' ha h
    cases h
    exact ⟨ha, [], by simp, [], by simp⟩
  | (k, v) :: t, hk => by
    obtain ⟨k', hk'⟩ := hk (k, v) (by simp)
    simp only at hk'
    subst hk'
    refine ((writes_key hrec k').bind ((hrec.val v).bind (writes_props t fun e he => hk e (by simp [he])))).imp ?_
    rintro b ⟨x, _, rfl, h1, y, z, rfl, h2, es, h3, h4, h5, rfl⟩
    refine ⟨(x, y) :: es, by simp [h3], ?_, ?_, by simp⟩
    · intro e he
      rcases List.mem_cons.mp he with rfl | he
      · exact h1
      · exact h4 e he
    · intro e he
      rcases List.mem_cons.mp he with rfl | he
      · exact h2
      · exact h5 e he

theorem writes_map (es : List (Val × Val)) (x : Val) : Writes (Wire fs) (writeJSMap rec es x) := by
  refine ((writes_record x).after ((writes_tag _).bind ((writes_entries hrec es).bind ((writes_tag _).bind (writes_emit _))))).imp ?_
  rintro b ⟨_, _, rfl, rfl, _, _, rfl, ⟨l, h1, h2, h3, rfl⟩, _, _, rfl, rfl, rfl⟩
  rw [← h1]
  exact .map l h2 h3

theorem writes_set (ms : List Val) (x : Val) : Writes (Wire fs) (writeJSSet rec ms x) := by
  refine ((writes_record x).after ((writes_tag _).bind ((writes_vals hrec ms).bind ((writes_tag _).bind (writes_emit _))))).imp ?_
  rintro b ⟨_, _, rfl, rfl, _, _, rfl, ⟨l, h1, h2, rfl⟩, _, _, rfl, rfl, rfl⟩
  rw [← h1]
  exact .set l h2

theorem writes_objectProps (l : List (Val × Val)) (hk : ∀ e ∈ l, ∃ k : PKey, e.1 = k.toVal) (t : Tag) :
    Writes (fun b => ∃ es : List (Bytes × Bytes), (∀ e ∈ es, WireKey e.1) ∧ (∀ e ∈ es, Wire fs e.2) ∧
      b = es.flatMap (fun e => e.1 ++ e.2) ++ t.byte :: writeVarint es.length) (writeObjectProps rec l t) := by
  refine ((writes_props hrec l hk).bind ((writes_tag t).bind (writes_emit _))).imp ?_
  rintro b ⟨_, _, rfl, ⟨es, h1, h2, h3, rfl⟩, _, _, rfl, rfl, rfl⟩
  exact ⟨es, h2, h3, by rw [h1]; rfl⟩

theorem writes_object (l : List (Val × Val)) (hk : ∀ e ∈ l, ∃ k : PKey, e.1 = k.toVal) (x : Val) :
    Writes (Wire fs) (writeJSObject rec l x) := by
  refine ((writes_record x).after ((writes_tag _).bind (writes_objectProps hrec l hk _))).imp ?_
  rintro b ⟨_, _, rfl, rfl, es, h1, h2, rfl⟩
  exact .object es h1 h2

theorem writes_dense (els : List Val) (l : List (Val × Val)) (hk : ∀ e ∈ l, ∃ k : PKey, e.1 = k.toVal) (x : Val) :
    Writes (Wire fs) (writeDenseArray rec els l x) := by
  refine ((writes_record x).after ((writes_tag _).bind ((writes_emit _).bind ((writes_vals hrec els).bind ((writes_props hrec l hk).bind
    ((writes_tag _).bind ((writes_emit _).bind (writes_emit _)))))))).imp ?_
  rintro b ⟨_, _, rfl, rfl, _, _, rfl, rfl, _, _, rfl, ⟨ms, h1, h2, rfl⟩, _, _, rfl, ⟨es, h3, h4, h5, rfl⟩, _, _, rfl, rfl, _, _, rfl,
    rfl, rfl⟩
  have := Wire.dense ms h2 es h4 h5
  rw [h1, h3] at this
  simpa [Tag.byte] using this

theorem writes_sparse (l : List (Val × Val)) (hk : ∀ e ∈ l, ∃ k : PKey, e.1 = k.toVal) (n : Int) (x : Val) :
    Writes (Wire fs) (writeSparseArray rec l n x) := by
  intro ws ws' ha h
  unfold writeSparseArray at h
  split at h
  · cases h
  · rename_i hn
    have hn' : n.toNat < 2 ^ 32 := by
      simp only [not_not] at hn
      have := hn.2
      unfold maxArrayLength at this
      omega
    refine (((writes_record x).after ((writes_tag _).bind ((writes_emit _).bind ((writes_objectProps hrec l hk _).bind
      (writes_emit _))))).imp ?_) ws ws' ha h
    rintro b ⟨_, _, rfl, rfl, _, _, rfl, rfl, _, _, rfl, ⟨es, h1, h2, rfl⟩, rfl⟩
    have := Wire.sparse n.toNat hn' es h1 h2
    simpa [Tag.byte] using this

end

theorem field_wire (t : ErrTag) (text : Option Str) : Writes (WireField t.code) (writeErrText t text) := by
  intro ws ws' ha h
  cases text with
  | none => cases h; exact ⟨ha, [], by simp, .none⟩
  | some s =>
    refine (((writes_emit _).bind (writes_tagged (P := fun b => ∃ x, WireText x ∧ b = 0x53 :: x) fun bs hbs =>
      ⟨bs, text_wire hbs, rfl⟩)).imp ?_) ws ws' ha h
    rintro b ⟨_, _, rfl, rfl, x, h1, rfl⟩
    exact .some x h1

theorem kind_wire (name : Str) : Writes WireKind (writeErrProto name) := by
  intro ws ws' ha h
  unfold writeErrProto at h
  split at h
  · cases h; exact ⟨ha, [], by simp, .none⟩
  · rename_i t ht
    cases h
    refine ⟨ha, _, rfl, .some _ ?_⟩
    generalize ErrName.forName name = e at ht
    cases e <;> cases ht <;> decide

theorem writes_error {fs : Features} {rec : Val → Wr} (hrec : WireRec fs rec) (circ : Bool) (x : Val) (name : Str)
    (msg stack : Option Str) (cause : Val) : Writes (Wire fs) (writeError circ rec x name msg stack cause) := by
  have hfin : writeVarint ErrTag.fin.code = [46] := by decide +kernel
  have hcl : writeVarint ErrTag.cause.code = [99] := by decide +kernel
  by_cases hc : cause = .null
  · have e : writeError circ rec x name msg stack cause = fun ws => markSkew ws >>= fun ws => writeTag .kError ws >>= fun ws =>
        writeErrProto name ws >>= fun ws => writeErrText .message msg ws >>= fun ws => writeErrText .stack stack ws >>=
        emit (writeVarint ErrTag.fin.code) := by
      funext ws
      simp only [writeError, hc, if_true, bind, Except.bind]
    rw [e]
    refine (writes_mark.after ((writes_tag _).bind ((kind_wire name).bind ((field_wire _ msg).bind ((field_wire _ stack).bind
      (writes_emit _)))))).imp ?_
    rintro b ⟨_, _, rfl, rfl, k, _, rfl, h1, m, _, rfl, h2, s, _, rfl, h3, rfl⟩
    rw [hfin]
    have := Wire.error (fs := fs) k m s h1 h2 h3
    simpa [Tag.byte] using this
  · have e : writeError circ rec x name msg stack cause = fun ws => writeTag .kError ws >>= fun ws =>
        writeErrProto name ws >>= fun ws => writeErrText .message msg ws >>= fun ws => writeErrText .stack stack ws >>= fun ws =>
        writeCause circ rec x cause ws >>= emit (writeVarint ErrTag.fin.code) := by
      funext ws
      simp only [writeError, if_neg hc, bind, Except.bind]
    rw [e]
    have hcause : Writes (fun b => ∃ c, Wire fs c ∧ b = 99 :: c) (writeCause circ rec x cause) := by
      cases circ with
      | true =>
        refine ((writes_emit _).bind ((writes_record x).after (hrec.val cause))).imp ?_
        rintro b ⟨_, c, rfl, rfl, h⟩
        exact ⟨c, h, by rw [hcl]; rfl⟩
      | false =>
        intro ws ws' ha h
        unfold writeCause at h
        simp only [emit, bind, Except.bind, Bool.false_eq_true, if_false] at h
        split at h
        · cases h
        · rename_i w2 hw2
          cases h
          obtain ⟨g1, c, g2, g3⟩ := hrec.val cause _ _ (by exact ha) hw2
          refine ⟨g1, 99 :: c, ?_, c, g3, rfl⟩
          rw [hcl] at g2
          simpa using g2
    refine ((writes_tag _).bind ((kind_wire name).bind ((field_wire _ msg).bind ((field_wire _ stack).bind
      (hcause.bind (writes_emit _)))))).imp ?_
    rintro b ⟨_, _, rfl, rfl, k, _, rfl, h1, m, _, rfl, h2, s, _, rfl, h3, _, _, rfl, ⟨c, h4, rfl⟩, rfl⟩
    rw [hfin]
    have := Wire.errorCause (fs := fs) k m s c h1 h2 h3 h4
    simpa [Tag.byte] using this

theorem writes_fixed {fs : Features} (data : Bytes) (x : Val) : Writes (Wire fs) (writeFixedBuffer data x) := by
  refine ((writes_record x).after ((writes_tag _).bind ((writes_emitE (P := fun b => data.length < 2 ^ 32 ∧ b = writeVarint data.length)
    fun bs h => ?_).bind (writes_emit _)))).imp ?_
  · exact writeUint32_eq h
  · rintro b ⟨_, _, rfl, rfl, _, _, rfl, ⟨h, rfl⟩, h2⟩
    rw [h2]
    exact .buffer data h

theorem writes_resizable {fs : Features} (hf : fs.resizableArrayBuffers = true) (b : ABuf) (x : Val) :
    Writes (Wire fs) (writeResizableBuffer b x) := by
  intro ws ws' ha h
  unfold writeResizableBuffer at h
  split at h
  · cases h
  · rename_i hm
    refine (((writes_record x).after ((writes_tag _).bind ((writes_emitE (P := fun y => y = writeVarint b.exposed.length)
      fun bs h => (writeUint32_eq h).2).bind ((writes_emitE (P := fun y => b.max < 2 ^ 32 ∧ y = writeVarint b.max)
      fun bs h => ?_).bind (writes_emit _))))).imp ?_) ws ws' ha h
    · exact writeUint32_eq h
    · rintro b' ⟨_, _, rfl, rfl, _, _, rfl, rfl, _, _, rfl, ⟨h, rfl⟩, rfl⟩
      have := Wire.resizable hf b.max h b.exposed (by omega)
      simpa [Tag.byte] using this

theorem writes_bufferId {fs : Features} {t : Tag} (ht : ∀ n, Wire fs (t.byte :: writeVarint n)) (id : Int) (x : Val) :
    Writes (Wire fs) (writeBufferId t id x) := by
  intro ws ws' ha h
  unfold writeBufferId at h
  split at h
  · cases h
  · refine ((writes_mark.after ((writes_record x).after ((writes_tag _).bind (writes_emit _)))).imp ?_) ws ws' ha h
    rintro b' ⟨_, _, rfl, rfl, rfl⟩
    exact ht _

theorem writes_view {fs : Features} (v : View) (mv : Bytes) (r : Bool) (x : Val) :
    Writes (fun b => ∃ kind offset length flags, (kind = 104 → fs.float16Array = true) ∧ flags < 4 ∧
      b = 0x56 :: (writeVarint kind ++ writeVarint offset ++ writeVarint length ++ writeVarint flags)) (writeView fs v mv r x) := by
  intro ws ws' ha h
  unfold writeView at h
  by_cases hc : v.tag = .float16 ∧ fs.float16Array = false
  · rw [if_pos hc] at h; cases h
  · rw [if_neg hc] at h
    generalize h1 : writeUint32 (v.byteOffset mv) = r1 at h
    generalize h2 : writeUint32 (v.byteLength mv) = r2 at h
    refine (((writes_record x).after ((writes_tag _).bind ((writes_emit _).bind ((writes_emitE (P := fun y => ∃ n, y = writeVarint n)
      fun bs h => ?_).bind ((writes_emitE (P := fun y => ∃ n, y = writeVarint n) fun bs h => ?_).bind (writes_emit _)))))).imp ?_)
      ws ws' ha h
    · subst h
      obtain ⟨k, _, _, h⟩ := uint32_wire h1
      exact ⟨k, h⟩
    · subst h
      obtain ⟨k, _, _, h⟩ := uint32_wire h2
      exact ⟨k, h⟩
    · rintro b' ⟨_, _, rfl, rfl, _, _, rfl, rfl, _, _, rfl, ⟨o, rfl⟩, _, _, rfl, ⟨l, rfl⟩, rfl⟩
      refine ⟨v.tag.code, o, l, viewFlags r (v.isLengthTracking r), ?_, ?_, by simp [Tag.byte]⟩
      · intro hk
        have ht : v.tag = .float16 := by
          cases hv : v.tag <;> rw [hv] at hk <;> first | rfl | cases hk
        by_contra hf
        exact hc ⟨ht, by simpa using hf⟩
      · unfold viewFlags; split <;> split <;> omega

theorem writes_node {env : EEnv} {rec : Val → Wr} (hrec : WireRec env.feats rec) (x : Val) (n : Node) :
    Writes (Wire env.feats) (serializeNode env rec unhandledValue x n) := by
  have hitems : ∀ l : List (PKey × Val), ∀ e ∈ itemVals l, ∃ k : PKey, e.1 = k.toVal := by
    intro l e he
    simp only [itemVals, List.mem_map] at he
    obtain ⟨a, _, rfl⟩ := he
    exact ⟨a.1, rfl⟩
  have hprops : ∀ l : Dict Str Val, ∀ e ∈ propVals l, ∃ k : PKey, e.1 = k.toVal := by
    intro l e he
    simp only [propVals, List.mem_map] at he
    obtain ⟨a, _, rfl⟩ := he
    exact ⟨.name a.1, rfl⟩
  cases n with
  | jsmap es => exact writes_map hrec es x
  | jsset ms => exact writes_set hrec ms x
  | jsobj o => exact writes_object hrec _ (hitems _) x
  | jsarr o =>
    intro ws ws' ha h
    simp only [serializeNode, serializeJSArray] at h
    split at h
    · exact writes_sparse hrec _ (hitems _) _ x ws ws' ha h
    · exact writes_dense hrec _ _ (hprops _) x ws ws' ha h
  | pylist els => exact writes_dense hrec els [] (by simp) x
  | date d =>
    intro ws ws' ha h
    simp only [serializeNode, writeDate] at h
    split at h
    · cases h
    · refine (((writes_record x).after ((writes_tag _).bind (writes_emit _))).imp ?_) ws ws' ha h
      rintro b' ⟨_, _, rfl, rfl, rfl⟩
      exact .date _ (double_length _)
  | primObj p =>
    refine ((writes_record x).after ((writes_tag _).bind (writes_emitE (P := fun b => primObjPayload p = .ok b) fun _ h => h))).imp ?_
    rintro b' ⟨_, y, rfl, rfl, h⟩
    cases p with
    | str s => exact .stringObject _ (text_wire h)
    | bool b => cases h; cases b <;> first | exact .trueObject | exact .falseObject
    | float v => cases h; exact .numberObject _ (double_length _)
    | safeInt v => cases h; exact .numberObject _ (double_length _)
    | bigint v => exact .bigintObject _ (big_wire h)
  | regexp r =>
    refine (writes_mark.after ((writes_tag _).bind ((writes_tagged (P := fun b => ∃ y, WireText y ∧ b = 0x53 :: y) fun bs hbs =>
      ⟨bs, text_wire hbs, rfl⟩).bind (writes_emit _)))).imp ?_
    rintro b ⟨_, _, rfl, rfl, _, _, rfl, ⟨y, h, rfl⟩, rfl⟩
    have := Wire.regexp (fs := env.feats) y h (canonicalFlags r.flags) (by
      unfold canonicalFlags
      exact lt_of_le_of_lt Nat.and_le_right (by decide))
    simpa [Tag.byte] using this
  | error name msg stack cause => exact writes_error hrec _ x name msg stack cause
  | abuf b =>
    intro ws ws' ha h
    simp only [serializeNode, writeArrayBuffer] at h
    split at h
    · rename_i hc
      simp only [Bool.and_eq_true] at hc
      exact writes_resizable hc.2 b x ws ws' ha h
    · exact writes_fixed _ x ws ws' ha h
  | rawBuf m b => exact writes_fixed b x
  | sharedBuf id => exact writes_bufferId (fun n => .shared n) id x
  | transferBuf id => exact writes_bufferId (fun n => .transfer n) id x
  | view backing v =>
    intro ws ws' ha h
    simp only [serializeNode] at h
    by_cases hc : v.tag = .float16 ∧ env.feats.float16Array = false
    · rw [if_pos hc] at h; cases h
    · rw [if_neg hc] at h
      refine (((hrec.val backing).bind (writes_view v _ _ x)).imp ?_) ws ws' ha h
      rintro b' ⟨y, _, rfl, h1, k, o, l, fl, h2, h3, rfl⟩
      exact .view y h1 k h2 o l fl h3
  | sharedRef id =>
    refine ((writes_record x).after ((writes_tag _).bind (writes_emitE (P := fun b => ∃ k, k < 2 ^ 32 ∧ b = writeVarint k)
      fun b h => ?_))).imp ?_
    · obtain ⟨k, h1, _, h2⟩ := uint32_wire h
      exact ⟨k, h1, h2⟩
    · rintro b' ⟨_, y, rfl, rfl, k, h1, rfl⟩
      exact .sharedObject k h1
  | other => intro ws ws' ha h; cases h

theorem writes_tagWriter {env : EEnv} {rec : Val → Wr} (hrec : WireRec env.feats rec) (v : Val) :
    Writes (Wire env.feats) (tagWriter env rec v unhandledValue) := by
  have const : ∀ t : Tag, t.byte ∈ [(0x2d : UInt8), 0x5f, 0x30, 0x54, 0x46] → Writes (Wire env.feats) (writeConstant t) :=
    fun t ht => writes_constant.imp fun b hb => by subst hb; exact .constant _ ht
  cases v with
  | hole => exact const _ (by decide)
  | undef => exact const _ (by decide)
  | null => exact const _ (by decide)
  | bool b => cases b <;> exact const _ (by decide)
  | int n =>
    intro ws ws' ha h
    have h : serializeInt n ws = .ok ws' := h
    unfold serializeInt at h
    split at h
    · refine writes_tagged (fun bs hb => ?_) ws ws' ha h
      obtain ⟨m, h1, _, rfl⟩ := uint32_wire hb
      exact .primitive _ (.uint32 m h1)
    · split at h
      · refine writes_tagged (fun bs hb => ?_) ws ws' ha h
        obtain ⟨m, rfl⟩ := int32_wire hb
        exact .primitive _ (.int32 m)
      · split at h
        · refine (((writes_tag _).bind (writes_emit _)).imp ?_) ws ws' ha h
          rintro b ⟨_, _, rfl, rfl, rfl⟩
          exact .primitive _ (.double _ (double_length _))
        · split at h
          · rename_i hk
            rw [ha] at hk
            cases hk
          · refine writes_tagged (fun bs hb => ?_) ws ws' ha h
            exact .bigint _ (big_wire hb)
  | float x =>
    refine ((writes_tag _).bind (writes_emit _)).imp ?_
    rintro b ⟨_, _, rfl, rfl, rfl⟩
    exact .primitive _ (.double _ (double_length _))
  | str s => exact writes_tagged fun bs hb => .primitive _ (.utf8 _ (text_wire hb))
  | bytes b => exact writes_fixed b _
  | obj i =>
    intro ws ws' ha h
    simp only [tagWriter] at h
    cases hi : env.heap[i]? with
    | some n => rw [hi] at h; exact writes_node hrec _ _ ws ws' ha h
    | none => rw [hi] at h; cases h

theorem encode_wire (env : EEnv) (f : Nat) : WireRec env.feats (encodeObject env f) := by
  induction f with
  | zero => exact ⟨fun v ws ws' _ h => by simp [encodeObject, encodeWith] at h, fun k ws ws' _ h => by simp [encodeObject, encodeWith] at h⟩
  | succ f ih =>
    refine ⟨fun v ws ws' ha h => ?_, fun k ws ws' ha h => ?_⟩
    · rw [encodeObject_succ] at h
      have hd : (deduplicate env v ws).2.data = ws.data := by rw [deduplicate_state]
      have hal : (deduplicate env v ws).2.allowed = ws.allowed := by rw [deduplicate_state]
      unfold refsStep at h
      generalize deduplicate env v ws = p at *
      obtain ⟨d, w1⟩ := p
      simp only at hd hal h
      rw [ha] at hal
      rw [← hd]
      split at h
      · unfold writeReference at h
        split at h
        · cases h
        · refine (((writes_note _).after ((writes_tag _).bind (writes_emit _))).imp ?_) w1 ws' hal h
          rintro b ⟨_, _, rfl, rfl, rfl⟩
          exact .reference _
      · exact writes_tagWriter ih d w1 ws' hal h
    · rw [encodeObject_succ] at h
      have hd : deduplicate env k.toVal ws = (k.toVal, ws) := by cases k <;> rfl
      unfold refsStep at h
      rw [hd] at h
      simp only at h
      split at h
      · unfold writeReference at h
        split at h
        · cases h
        · exfalso
          obtain ⟨w1, h1, h2⟩ := Except.bind_eq_ok h
          cases h1
          obtain ⟨w2, h3, h4⟩ := Except.bind_eq_ok h2
          unfold writeTag at h3
          simp only [ha] at h3
          rw [if_neg (by decide)] at h3
          cases h3
      · exact key_wire (Or.inr ha) h (fun h => by rw [ha] at h; cases h)

end V8
