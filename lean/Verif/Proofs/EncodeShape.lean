import Verif.Proofs.RoundTripMain
import Verif.Spec.Size

/-! Helper lemmas: every successful run of the encoder is a sequence of calls for nested values, with
bytes of bounded number written in between. -/

namespace V8
open Spec

/-- From `a` to `b` only bytes are written: `n` of them, and no reference. -/
def Quiet (n : Nat) (a b : WS) : Prop :=
  b.log = a.log ∧ b.memo = a.memo ∧ b.data.length = a.data.length + n ∧ b.badRef = a.badRef

/-- From `a` to `b` only bytes are written: `n` of them, perhaps as a reference. -/
def Bare (n : Nat) (a b : WS) : Prop :=
  b.log = a.log ∧ b.memo = a.memo ∧ b.data.length = a.data.length + n

theorem Quiet.bare {n : Nat} {a b : WS} (h : Quiet n a b) : Bare n a b := ⟨h.1, h.2.1, h.2.2.1⟩

theorem Quiet.refl (a : WS) : Quiet 0 a a := ⟨rfl, rfl, rfl, rfl⟩

theorem Quiet.trans {n m : Nat} {a b c : WS} (h1 : Quiet n a b) (h2 : Quiet m b c) : Quiet (n + m) a c :=
  ⟨h2.1.trans h1.1, h2.2.1.trans h1.2.1, by rw [h2.2.2.1, h1.2.2.1]; omega, h2.2.2.2.trans h1.2.2.2⟩

/-- From `a` to `b` the values `cs` are encoded in this order by `rec`, and `n` other bytes written. -/
inductive Walks (rec : Val → Wr) : List Val → Nat → WS → WS → Prop
  | done {n : Nat} {a b : WS} (h : Quiet n a b) : Walks rec [] n a b
  | call {c : Val} {cs : List Val} {n m : Nat} {a b d e : WS} (h : Quiet n a b) (hc : rec c b = .ok d)
      (ht : Walks rec cs m d e) : Walks rec (c :: cs) (n + m) a e

theorem Walks.quiet {rec : Val → Wr} {cs : List Val} {n m : Nat} {a b c : WS} (h : Quiet n a b)
    (hw : Walks rec cs m b c) : Walks rec cs (n + m) a c := by
  cases hw with
  | done h' => exact .done (h.trans h')
  | call h' hc ht => rw [← Nat.add_assoc]; exact .call (h.trans h') hc ht

theorem Walks.trans {rec : Val → Wr} {cs ds : List Val} {n m : Nat} {a b c : WS} (h1 : Walks rec cs n a b)
    (h2 : Walks rec ds m b c) : Walks rec (cs ++ ds) (n + m) a c := by
  induction h1 with
  | done h => exact h2.quiet h
  | call h hc ht ih => rw [Nat.add_assoc]; exact .call h hc (ih h2)

/-- All runs of a writer are such sequences, with at most `N` bytes in between. -/
def Shaped (rec : Val → Wr) (cs : List Val) (N : Nat) (w : Wr) : Prop :=
  ∀ ws ws', w ws = .ok ws' → ∃ n, n ≤ N ∧ Walks rec cs n ws ws'

section
variable {rec : Val → Wr}

theorem Shaped.le {cs : List Val} {N M : Nat} {w : Wr} (h : Shaped rec cs N w) (hNM : N ≤ M) : Shaped rec cs M w :=
  fun ws ws' hw => by
    obtain ⟨n, h1, h2⟩ := h ws ws' hw
    exact ⟨n, le_trans h1 hNM, h2⟩

theorem Shaped.bind {cs ds : List Val} {N M : Nat} {f : Wr} {g : WS → Except EErr WS} (hf : Shaped rec cs N f)
    (hg : Shaped rec ds M g) : Shaped rec (cs ++ ds) (N + M) (fun ws => f ws >>= g) := by
  intro ws ws' h
  obtain ⟨w1, h1, h2⟩ := Except.bind_eq_ok h
  obtain ⟨n, g1, g2⟩ := hf _ _ h1
  obtain ⟨m, g3, g4⟩ := hg _ _ h2
  exact ⟨n + m, Nat.add_le_add g1 g3, g2.trans g4⟩

/-- A part that only writes bytes first. -/
theorem Shaped.then {cs : List Val} {N M : Nat} {f : Wr} {g : WS → Except EErr WS} (hf : Shaped rec [] N f)
    (hg : Shaped rec cs M g) : Shaped rec cs (N + M) (fun ws => f ws >>= g) := hf.bind hg

/-- A part that only writes bytes last. -/
theorem Shaped.after {cs : List Val} {N M : Nat} {f : Wr} {g : WS → Except EErr WS} (hf : Shaped rec cs N f)
    (hg : Shaped rec [] M g) : Shaped rec cs (N + M) (fun ws => f ws >>= g) := by
  have := hf.bind hg
  rwa [List.append_nil] at this

theorem shaped_quiet {w : Wr} {N : Nat} (h : ∀ ws ws', w ws = .ok ws' → ∃ n, n ≤ N ∧ Quiet n ws ws') :
    Shaped rec [] N w := fun ws ws' hw => by
  obtain ⟨n, h1, h2⟩ := h ws ws' hw
  exact ⟨n, h1, .done h2⟩

theorem shaped_done : Shaped rec [] 0 (fun ws => .ok ws) :=
  shaped_quiet fun ws ws' h => ⟨0, le_refl _, by cases h; exact Quiet.refl _⟩

theorem shaped_emit (bs : Bytes) : Shaped rec [] bs.length (emit bs) :=
  shaped_quiet fun ws ws' h => ⟨bs.length, le_refl _, by rw [emit_ok h]; exact ⟨rfl, rfl, by simp, rfl⟩⟩

theorem shaped_emitE {r : Except EErr Bytes} {N : Nat} (hr : ∀ bs, r = .ok bs → bs.length ≤ N) :
    Shaped rec [] N (emitE r) :=
  shaped_quiet fun ws ws' h => by
    obtain ⟨bs, h1, h2⟩ := emitE_ok h
    exact ⟨bs.length, hr bs h1, by rw [h2]; exact ⟨rfl, rfl, by simp, rfl⟩⟩

theorem shaped_mark : Shaped rec [] 0 markSkew :=
  shaped_quiet fun ws ws' h => ⟨0, le_refl _, by rw [markSkew_ok h]; exact ⟨rfl, rfl, rfl, rfl⟩⟩

theorem shaped_writeTag (t : Tag) : Shaped rec [] 1 (writeTag t) :=
  shaped_quiet fun ws ws' h => ⟨1, le_refl _, by rw [(writeTag_ok h).1]; exact ⟨rfl, rfl, by simp, rfl⟩⟩

/-- A reference. -/
theorem reference_bare {n : Nat} {w w' : WS}
    (h : (noteRef n w >>= fun w => writeTag .kObjectReference w >>= emit (writeVarint n)) = .ok w') :
    Bare ((writeVarint n).length + 1) w w' := by
  obtain ⟨w1, h1, h⟩ := Except.bind_eq_ok h
  obtain ⟨w2, h2, h3⟩ := Except.bind_eq_ok h
  cases h1
  rw [emit_ok h3, (writeTag_ok h2).1]
  exact ⟨rfl, rfl, by simp⟩

theorem shaped_writeTagged (t : Tag) {r : Except EErr Bytes} {N : Nat} (hr : ∀ bs, r = .ok bs → bs.length ≤ N) :
    Shaped rec [] (N + 1) (writeTagged t r) :=
  shaped_quiet fun ws ws' h => by
    obtain ⟨bs, h1, h2, _⟩ := writeTagged_ok h
    exact ⟨bs.length + 1, Nat.add_le_add_right (hr bs h1) 1, by rw [h2]; exact ⟨rfl, rfl, by simp, rfl⟩⟩

theorem shaped_writeConstant (t : Tag) : Shaped rec [] 1 (writeConstant t) :=
  shaped_quiet fun ws ws' h => ⟨1, le_refl _, by rw [writeConstant_ok h]; exact ⟨rfl, rfl, by simp, rfl⟩⟩

theorem shaped_double (x : F64) : Shaped rec [] 9 (writeDoubleTagged x) := by
  refine ((shaped_writeTag _).then (shaped_emit _)).le ?_
  simp [writeDouble]

theorem shaped_rec (c : Val) : Shaped rec [c] 0 (rec c) :=
  fun ws ws' h => ⟨0 + 0, le_refl _, .call (Quiet.refl _) h (.done (Quiet.refl _))⟩

theorem shaped_vals : ∀ l, Shaped rec l 0 (writeVals rec l)
  | [] => shaped_done
  | v :: t => (shaped_rec v).bind (shaped_vals t)

/-- The values of a list of pairs in the order of writing. -/
def pairCalls (l : List (Val × Val)) : List Val := l.flatMap (fun e => [e.1, e.2])

theorem shaped_entries : ∀ l, Shaped rec (pairCalls l) 0 (writeEntries rec l)
  | [] => shaped_done
  | (k, v) :: t => (shaped_rec k).bind ((shaped_rec v).bind (shaped_entries t))

theorem shaped_key (k : Val) : Shaped rec [k] 0 (writeKey rec k) := by
  intro ws ws' h
  obtain ⟨w1, h1, h2⟩ := Except.bind_eq_ok h
  cases h2
  exact ⟨0 + 0, le_refl _, .call (b := { ws with allowed := some jsObjectKeyTags }) ⟨rfl, rfl, rfl, rfl⟩ h1 (.done ⟨rfl, rfl, rfl, rfl⟩)⟩

theorem shaped_props : ∀ l, Shaped rec (pairCalls l) 0 (writeProps rec l)
  | [] => shaped_done
  | (k, v) :: t => (shaped_key k).bind ((shaped_rec v).bind (shaped_props t))

end

/-! ## Sizes of the primitive encodings -/

theorem writeVarint_length_linear (n : Nat) : (writeVarint n).length ≤ n + 1 := by
  induction n using Nat.strongRecOn with
  | _ n ih =>
    rw [writeVarint]
    split
    · simp
    · have := ih (n / 128) (by omega)
      simp only [List.length_cons]
      omega

theorem writeVarint32_length {n : Nat} (h : n < 2 ^ 32) : (writeVarint n).length ≤ 5 :=
  writeVarint_length_le 4 n (by omega)

theorem writeUint32_length {n : Int} {bs : Bytes} (h : writeUint32 n = .ok bs) : bs.length ≤ 5 := by
  unfold writeUint32 at h
  split at h
  · cases h
  · rename_i hn
    simp only [Bool.not_eq_true, Bool.not_eq_false', inUint32, Bool.and_eq_true, decide_eq_true_eq] at hn
    unfold writeVarintInt at h
    rw [if_neg (by omega)] at h
    cases h
    exact writeVarint32_length (by omega)

theorem writeInt32_length {n : Int} {bs : Bytes} (h : writeInt32 n = .ok bs) : bs.length ≤ 5 := by
  unfold writeInt32 at h
  split at h
  · cases h
  · rename_i hn
    simp only [Bool.not_eq_true, Bool.not_eq_false', inInt32, Bool.and_eq_true, decide_eq_true_eq] at hn
    unfold writeZigzag writeVarintInt at h
    split at h
    · cases h
    · cases h
      refine writeVarint32_length ?_
      unfold encodeZigzag
      split <;> omega

theorem utf8Encode_size {s : Str} : ∀ {bs : Bytes}, utf8Encode s = some bs → bs.length ≤ 4 * s.length := by
  induction s with
  | nil => intro bs h; cases h; simp
  | cons c s ih =>
    intro bs h
    simp only [utf8Encode] at h
    split at h
    · simp only [Option.map_eq_some_iff] at h
      obtain ⟨t, h1, rfl⟩ := h
      have := ih h1
      have hc : (utf8Char c).length ≤ 4 := by
        unfold utf8Char
        repeat' split
        all_goals simp
      simp only [List.length_append, List.length_cons]
      omega
    · cases h

theorem writeStringUtf8_length {s : Str} {bs : Bytes} (h : writeStringUtf8 s = .ok bs) : bs.length ≤ 8 * s.length + 1 := by
  unfold writeStringUtf8 at h
  split at h
  · cases h
  · rename_i b hb
    cases h
    have h1 := utf8Encode_size hb
    have h2 := writeVarint_length_linear b.length
    simp only [List.length_append]
    omega

theorem latin1Encode_length {s : Str} : ∀ {bs : Bytes}, latin1Encode s = some bs → bs.length = s.length := by
  unfold latin1Encode
  induction s with
  | nil => intro bs h; cases h; rfl
  | cons c s ih =>
    intro bs h
    rw [List.mapM_cons] at h
    cases hc : (if c < 256 then some (UInt8.ofNat c) else none : Option UInt8) with
    | none => simp [hc] at h
    | some b =>
      simp only [hc] at h
      cases ht : List.mapM (fun c => if c < 256 then some (UInt8.ofNat c) else none) s with
      | none => simp [ht] at h
      | some t =>
        simp [ht] at h
        rw [← h]
        simp [ih ht]

theorem decDigitsRev_length (f : Nat) : ∀ n b, n < 2 ^ b → (decDigitsRev f n).length ≤ b + 1 := by
  induction f with
  | zero => intro n b _; simp [decDigitsRev]
  | succ f ih =>
    intro n b h
    simp only [decDigitsRev]
    split
    · simp
    · cases b with
      | zero => omega
      | succ b =>
        have := ih (n / 10) b (by rw [Nat.pow_succ] at h; omega)
        simp only [List.length_cons]
        omega

theorem writeBigint_length {n : Int} {bs : Bytes} (h : writeBigint n = .ok bs) :
    bs.length ≤ bitLength n.natAbs + 8 := by
  unfold writeBigint at h
  simp only at h
  split at h
  · cases h
  · cases h
    have := writeVarint_length_linear ((bitLength n.natAbs + 8) / 8 * 2 + (if n < 0 then 1 else 0))
    simp only [List.length_append, toLE_length]
    split at this <;> split <;> omega

theorem bigKeyPayload_length {n : Int} {bs : Bytes} (h : bigKeyPayload n = .ok bs) :
    bs.length ≤ 2 * bitLength n.natAbs + 5 := by
  unfold bigKeyPayload at h
  cases hs : pyIntStr n with
  | error e => rw [hs] at h; cases h
  | ok s =>
    rw [hs] at h
    simp only at h
    have hl : s.length ≤ bitLength n.natAbs + 2 := by
      have hd := decDigitsRev_length (n.natAbs + 1) n.natAbs _ (lt_pow_bitLength n.natAbs)
      unfold pyIntStr at hs
      simp only at hs
      split at hs
      · cases hs
      · simp only [Except.ok.injEq] at hs
        rw [← hs]
        unfold decDigits
        split
        · simp only [List.length_cons, List.length_reverse]; omega
        · simp only [List.length_reverse]; omega
    unfold writeStringOneByte at h
    split at h
    · cases h
    · rename_i b hb
      cases h
      have h1 := latin1Encode_length hb
      have h2 := writeVarint_length_linear b.length
      simp only [List.length_append]
      omega

theorem writeVarint_length_bits (n : Nat) : (writeVarint n).length ≤ bitLength n + 1 := by
  have h := lt_pow_bitLength n
  refine writeVarint_length_le (bitLength n) n (lt_of_lt_of_le h (Nat.pow_le_pow_right (by omega) (by omega)))

/-! ## Values -/

section
variable {rec : Val → Wr}

theorem shaped_int (n : Int) : Shaped rec [] (scalarSize (.int n)) (serializeInt n) := by
  intro ws ws' h
  unfold V8.serializeInt at h
  simp only [scalarSize]
  repeat' split at h
  · exact ((shaped_writeTagged _ fun _ => writeUint32_length).le (by omega)) ws ws' h
  · exact ((shaped_writeTagged _ fun _ => writeInt32_length).le (by omega)) ws ws' h
  · exact ((shaped_double _).le (by omega)) ws ws' h
  · exact ((shaped_writeTagged _ fun _ => bigKeyPayload_length).le (by omega)) ws ws' h
  · exact ((shaped_writeTagged _ fun _ => writeBigint_length).le (by omega)) ws ws' h

theorem shaped_errText (t : ErrTag) (s : Option Str) : Shaped rec [] (8 * (s.getD []).length + 3) (writeErrText t s) := by
  intro ws ws' h
  unfold V8.writeErrText at h
  split at h
  · exact (shaped_done.le (by omega)) ws ws' h
  · refine (((shaped_emit _).then (shaped_writeTagged _ fun _ => writeStringUtf8_length)).le ?_) ws ws' h
    have := writeVarint_length_le 0 t.code (by cases t <;> decide)
    simp only [Option.getD_some]
    omega

theorem shaped_errProto (name : Str) : Shaped rec [] 1 (writeErrProto name) := by
  intro ws ws' h
  unfold V8.writeErrProto at h
  split at h
  · exact (shaped_done.le (by omega)) ws ws' h
  · rename_i t _
    exact ((shaped_emit _).le (writeVarint_length_le 0 t.code (by cases t <;> decide))) ws ws' h

theorem shaped_primObj (p : PrimObj) : Shaped rec [] (frameSize (.primObj p))
    (fun ws => do let ws ← writeTag p.tag ws; emitE (primObjPayload p) ws) := by
  cases p with
  | str s => exact ((shaped_writeTag _).then (shaped_emitE fun _ => writeStringUtf8_length)).le (by simp only [frameSize]; omega)
  | bool b =>
    exact ((shaped_writeTag _).then (shaped_emitE (N := 0) fun _ h => by cases h; simp)).le (by simp [frameSize])
  | float x =>
    exact ((shaped_writeTag _).then (shaped_emitE (N := 8) fun _ h => by cases h; simp [writeDouble])).le (by simp [frameSize])
  | safeInt n =>
    exact ((shaped_writeTag _).then (shaped_emitE (N := 8) fun _ h => by cases h; simp [writeDouble])).le (by simp [frameSize])
  | bigint n => exact ((shaped_writeTag _).then (shaped_emitE fun _ => writeBigint_length)).le (by simp only [frameSize]; omega)

end

/-- The values encoded for an object, in the order of writing. -/
def calls : Node → List Val
  | .jsmap es => pairCalls es
  | .jsset ms => ms
  | .jsobj o => pairCalls (itemVals o.items)
  | .jsarr o =>
    if sparseIsSmaller o.array.used o.array.len then pairCalls (itemVals o.items)
    else o.array.toList.map elemVal ++ pairCalls (propVals o.props)
  | .pylist els => els
  | .error _ _ _ cause => if cause = .null then [] else [cause]
  | .view backing _ => [backing]
  | _ => []

/-- Bytes written for an object outside the nested calls, at most. -/
def frameBytes : Node → Nat
  | .jsobj o => 3 + o.items.length
  | .jsarr o =>
    if sparseIsSmaller o.array.used o.array.len then 13 + o.items.length
    else 5 + 2 * o.array.toList.length + o.props.length
  | n => frameSize n

/-- When an object is recorded. -/
inductive Mode where
  | first
  | last
  | acyclic
  deriving DecidableEq

/-- How the encoder writes the object or `bytes` value `x`: `cs` are the values inside, `N` bounds the
bytes written outside of them, `ac` says when `x` is recorded. -/
inductive NodeRun (rec : Val → Wr) (ac : Mode) (x : Val) (cs : List Val) (N : Nat) (ws ws' : WS) : Prop
  /-- recorded first -/
  | plain {n : Nat} {w1 : WS} (hac : ac = .first) (hn : n ≤ N) (hl : w1.log = (ws.log.record x).1) (hm : w1.memo = ws.memo)
      (hd : w1.data.length ≤ ws.data.length + n) {m : Nat} (hm' : n + m ≤ N) (h : Walks rec cs m w1 ws')
      (hb : w1.badRef = ws.badRef)
  /-- recorded last -/
  | last {n m : Nat} {w1 : WS} (hac : ac = .last) (hn : n + m ≤ N) (h : Walks rec cs n ws w1) (hl : ws'.log = (w1.log.record x).1)
      (hm : ws'.memo = w1.memo) (hd : ws'.data.length ≤ w1.data.length + m) (hb : ws'.badRef = w1.badRef)
  /-- recorded as a forward reference -/
  | acyclic {n m : Nat} {c : Val} {w1 w2 : WS} (hac : ac = .acyclic) (hc : cs = [c]) (hn : n + m ≤ N)
      (hl : w1.log = (ws.log.beginAcyclic x).1) (hm : w1.memo = ws.memo) (hd : w1.data.length ≤ ws.data.length + n)
      (h : rec c w1 = .ok w2) (hl' : ws'.log = w2.log.endAcyclic ws.log.slots.length x) (hm' : ws'.memo = w2.memo)
      (hd' : ws'.data.length ≤ w2.data.length + m) (hb : w1.badRef = ws.badRef) (hb' : ws'.badRef = w2.badRef)

section
variable {rec : Val → Wr} {ac : Mode} {x : Val}

theorem nodeRun_record {cs : List Val} {N : Nat} {g : WS → Except EErr WS} (hg : Shaped rec cs N g) {ws ws' : WS}
    (h : (recordRef x ws >>= g) = .ok ws') : NodeRun rec .first x cs N ws ws' := by
  obtain ⟨w1, h1, h2⟩ := Except.bind_eq_ok h
  obtain ⟨m, h3, h4⟩ := hg _ _ h2
  have e := recordRef_ok h1
  exact .plain (n := 0) rfl (by omega) (by rw [e]) (by rw [e]) (by rw [e]; exact le_refl _) (by omega) h4 (by rw [e])

theorem Walks.nil_quiet {n : Nat} {a b : WS} (h : Walks rec [] n a b) : Quiet n a b := by
  cases h with
  | done h => exact h

theorem nodeRun_fixedBuffer (data : Bytes) {ws ws' : WS} (h : writeFixedBuffer data x ws = .ok ws') :
    NodeRun rec .first x [] (6 + data.length) ws ws' :=
  nodeRun_record (((shaped_writeTag _).then ((shaped_emitE fun _ => writeUint32_length).then (shaped_emit _))).le
    (by omega)) h

theorem errText_code (t : ErrTag) : (writeVarint t.code).length ≤ 1 :=
  writeVarint_length_le 0 t.code (by cases t <;> decide)

/-- Bytes first, then a run of the object. -/
theorem NodeRun.quiet {cs : List Val} {N k : Nat} {a b c : WS} (hq : Quiet k a b) (h : NodeRun rec ac x cs N b c) :
    NodeRun rec ac x cs (k + N) a c := by
  obtain ⟨q1, q2, q3, q4⟩ := hq
  cases h with
  | @plain n _ hac hn hl hm hd m hm' h hb =>
    exact .plain (n := k + n) hac (Nat.add_le_add_left hn k) (by rw [hl, q1]) (by rw [hm, q2]) (by omega) (by omega) h (hb.trans q4)
  | @last n m _ hac hn h hl hm hd hb =>
    exact .last (n := k + n) (m := m) hac (by omega) (h.quiet ⟨q1, q2, q3, q4⟩) hl hm hd hb
  | @acyclic n m _ _ _ hac hc hn hl hm hd h hl' hm' hd' hb hb' =>
    exact .acyclic (n := k + n) (m := m) hac hc (by omega) (by rw [hl, q1]) (by rw [hm, q2]) (by omega) h (by rw [hl', q1]) hm' hd'
      (hb.trans q4) hb'

/-- Bytes last. -/
theorem NodeRun.after {cs : List Val} {N k : Nat} {a b c : WS} (h : NodeRun rec ac x cs N a b) (hq : Quiet k b c) :
    NodeRun rec ac x cs (N + k) a c := by
  have hq' := hq
  obtain ⟨q1, q2, q3, q4⟩ := hq
  cases h with
  | @plain n _ hac hn hl hm hd m hm' h hb =>
    refine .plain (n := n) hac (by omega) hl hm hd (m := m + k) (by omega) ?_ hb
    have := h.trans (.done hq')
    rwa [List.append_nil] at this
  | @last n m _ hac hn h hl hm hd hb =>
    exact .last (n := n) (m := m + k) hac (by omega) h (by rw [q1, hl]) (by rw [q2, hm]) (by rw [q3]; omega) (q4.trans hb)
  | @acyclic n m _ _ _ hac hc hn hl hm hd h hl' hm' hd' hb hb' =>
    exact .acyclic (n := n) (m := m + k) hac hc (by omega) hl hm hd h (by rw [q1, hl']) (by rw [q2, hm']) (by rw [q3]; omega) hb
      (q4.trans hb')

theorem NodeRun.le {cs : List Val} {N M : Nat} {a b : WS} (h : NodeRun rec ac x cs N a b) (hNM : N ≤ M) :
    NodeRun rec ac x cs M a b := by
  cases h with
  | plain hac hn hl hm hd hm' h hb => exact .plain hac (le_trans hn hNM) hl hm hd (le_trans hm' hNM) h hb
  | last hac hn h hl hm hd hb => exact .last hac (le_trans hn hNM) h hl hm hd hb
  | acyclic hac hc hn hl hm hd h hl' hm' hd' hb hb' => exact .acyclic hac hc (le_trans hn hNM) hl hm hd h hl' hm' hd' hb hb'

/-- All runs of a writer are such runs. -/
def NodeShaped (rec : Val → Wr) (ac : Mode) (x : Val) (cs : List Val) (N : Nat) (w : Wr) : Prop :=
  ∀ ws ws', w ws = .ok ws' → NodeRun rec ac x cs N ws ws'

theorem NodeShaped.first {cs : List Val} {N k : Nat} {f : Wr} {g : WS → Except EErr WS} (hf : Shaped rec [] k f)
    (hg : NodeShaped rec ac x cs N g) : NodeShaped rec ac x cs (k + N) (fun ws => f ws >>= g) := by
  intro ws ws' h
  obtain ⟨w1, h1, h2⟩ := Except.bind_eq_ok h
  obtain ⟨n, h3, h4⟩ := hf _ _ h1
  exact ((hg _ _ h2).quiet h4.nil_quiet).le (by omega)

theorem NodeShaped.last {cs : List Val} {N k : Nat} {f : Wr} {g : WS → Except EErr WS} (hf : NodeShaped rec ac x cs N f)
    (hg : Shaped rec [] k g) : NodeShaped rec ac x cs (N + k) (fun ws => f ws >>= g) := by
  intro ws ws' h
  obtain ⟨w1, h1, h2⟩ := Except.bind_eq_ok h
  obtain ⟨n, h3, h4⟩ := hg _ _ h2
  exact ((hf _ _ h1).after h4.nil_quiet).le (by omega)

theorem NodeShaped.le {cs : List Val} {N M : Nat} {w : Wr} (h : NodeShaped rec ac x cs N w) (hNM : N ≤ M) :
    NodeShaped rec ac x cs M w := fun ws ws' hw => (h ws ws' hw).le hNM

theorem nodeShaped_record {cs : List Val} {N : Nat} {g : WS → Except EErr WS} (hg : Shaped rec cs N g) :
    NodeShaped rec .first x cs N (fun ws => recordRef x ws >>= g) := fun _ _ h => nodeRun_record hg h

theorem nodeShaped_cause (circular : Bool) (cause : Val) :
    NodeShaped rec (if circular then .first else .acyclic) x [cause] 1 (writeCause circular rec x cause) := by
  refine (NodeShaped.first (N := 0) (shaped_emit _) ?_).le (by have := errText_code .cause; omega)
  intro ws ws' h
  cases circular with
  | true => exact nodeRun_record (shaped_rec cause) h
  | false =>
    simp only [Bool.false_eq_true, if_false] at h
    split at h
    · cases h
    · rename_i w2 h2
      cases h
      exact .acyclic (n := 0) (m := 0) (w1 := { ws with log := (ws.log.beginAcyclic x).1 }) rfl rfl (by omega) rfl rfl
        (by simp) h2 rfl rfl (by simp) rfl rfl

theorem shaped_error_null (circular : Bool) (name : Str) (msg stack : Option Str) :
    Shaped rec [] (frameSize (.error name msg stack .null)) (writeError circular rec x name msg stack .null) := by
  intro ws ws' h
  unfold V8.writeError at h
  simp only [if_true] at h
  refine ((shaped_mark.then ((shaped_writeTag _).then ((shaped_errProto _).then ((shaped_errText _ _).then
    ((shaped_errText _ _).then (shaped_done.then (shaped_emit _))))))).le ?_) ws ws' h
  have := errText_code .fin
  simp only [frameSize]
  omega

theorem nodeShaped_error (circular : Bool) (name : Str) (msg stack : Option Str) (cause : Val) (hc : cause ≠ .null) :
    NodeShaped rec (if circular then .first else .acyclic) x [cause] (frameSize (.error name msg stack cause)) (writeError circular rec x name msg stack cause) := by
  intro ws ws' h
  unfold V8.writeError at h
  simp only [if_neg hc] at h
  refine ((NodeShaped.first shaped_done (.first (shaped_writeTag _) (.first (shaped_errProto _)
    (.first (shaped_errText _ _) (.first (shaped_errText _ _)
      ((nodeShaped_cause _ _).last (shaped_emit _))))))).le ?_) ws ws' h
  have := errText_code .fin
  simp only [frameSize]
  omega

theorem nodeShaped_sparse (items : List (Val × Val)) (n : Int) :
    NodeShaped rec .first x (pairCalls items) (13 + items.length) (writeSparseArray rec items n x) := by
  intro ws ws' h
  unfold V8.writeSparseArray at h
  split at h
  · cases h
  · rename_i hn
    have hl : (writeVarint n.toNat).length ≤ 5 := by
      refine writeVarint32_length ?_
      simp only [maxArrayLength] at hn
      omega
    have hi := writeVarint_length_linear items.length
    refine (nodeShaped_record (((shaped_writeTag _).then ((shaped_emit _).then
      ((((shaped_props items).after ((shaped_writeTag _).then (shaped_emit _)))).after (shaped_emit _))))) |>.le ?_) ws ws' h
    omega

theorem nodeShaped_dense (els : List Val) (props : List (Val × Val)) :
    NodeShaped rec .first x (els ++ pairCalls props) (5 + 2 * els.length + props.length)
      (writeDenseArray rec els props x) := by
  intro ws ws' h
  unfold V8.writeDenseArray at h
  have h1 := writeVarint_length_linear els.length
  have h2 := writeVarint_length_linear props.length
  refine (nodeShaped_record (((shaped_writeTag _).then ((shaped_emit _).then
    ((shaped_vals els).bind ((shaped_props props).after
      ((shaped_writeTag _).then ((shaped_emit _).then (shaped_emit _)))))))) |>.le ?_) ws ws' h
  omega

theorem nodeShaped_view (env : EEnv) (backing : Val) (v : View) :
    NodeShaped rec .last x [backing] 14 (serializeView env rec backing v x) := by
  intro ws ws' h
  obtain ⟨w1, h1, h2⟩ := Except.bind_eq_ok h
  unfold V8.writeView at h2
  split at h2
  · cases h2
  · have hr : NodeRun rec .first x [] 14 w1 ws' := by
      refine ((nodeShaped_record ((shaped_writeTag _).then ((shaped_emit _).then ((shaped_emitE fun _ => writeUint32_length).then
        ((shaped_emitE fun _ => writeUint32_length).then (shaped_emit _)))))).le ?_) w1 ws' h2
      have h3 := writeVarint_length_le 0 v.tag.code (by cases v.tag <;> decide)
      have h4 : ∀ a b, (writeVarint (viewFlags a b)).length ≤ 1 := fun a b =>
        writeVarint_length_le 0 _ (by cases a <;> cases b <;> decide)
      have := h4 (backingResizable env.heap backing) (v.isLengthTracking (backingResizable env.heap backing))
      omega
    cases hr with
    | plain hac hn hl hm hd hm' hw hb =>
      obtain ⟨q1, q2, q3, q4⟩ := hw.nil_quiet
      refine .last (n := 0 + 0) rfl (by omega) (.call (Quiet.refl _) h1 (.done (Quiet.refl _))) (by rw [q1, hl]) (by rw [q2, hm]) ?_ (q4.trans hb) (m := 14)
      rw [q3]; omega
    | last hac hn hw hl hm hd hb =>
      obtain ⟨q1, q2, q3, q4⟩ := hw.nil_quiet
      refine .last (n := 0 + 0) rfl (by omega) (.call (Quiet.refl _) h1 (.done (Quiet.refl _))) (by rw [hl, q1]) (by rw [hm, q2]) ?_ (hb.trans q4) (m := 14)
      omega
    | acyclic hac => cases hac

/-- When an object of this kind is recorded. -/
def modeOf (env : EEnv) : Node → Mode
  | .error _ _ _ _ => if env.feats.circularErrorCause then .first else .acyclic
  | .view _ _ => .last
  | _ => .first

/-- The runs for an object that is recorded. -/
theorem nodeShaped_node (env : EEnv) {n : Node} (hu : ∀ r, n ≠ .regexp r) (hu' : ∀ a b c, n ≠ .error a b c .null) :
    NodeShaped rec (modeOf env n) x (calls n) (frameBytes n) (serializeNode env rec unhandledValue x n) := by
  cases n with
  | jsmap es =>
    have := writeVarint_length_linear (2 * es.length)
    exact (nodeShaped_record ((shaped_writeTag _).then ((shaped_entries es).after ((shaped_writeTag _).then (shaped_emit _))))).le
      (by simp only [frameBytes, frameSize]; omega)
  | jsset ms =>
    have := writeVarint_length_linear ms.length
    exact (nodeShaped_record ((shaped_writeTag _).then ((shaped_vals ms).after ((shaped_writeTag _).then (shaped_emit _))))).le
      (by simp only [frameBytes, frameSize]; omega)
  | jsobj o =>
    have := writeVarint_length_linear (itemVals o.items).length
    refine (nodeShaped_record ((shaped_writeTag _).then ((shaped_props _).after ((shaped_writeTag _).then (shaped_emit _))))).le ?_
    simp only [frameBytes]
    have h2 : (itemVals o.items).length = o.items.length := by simp [itemVals]
    omega
  | jsarr o =>
    intro ws ws' h
    simp only [V8.serializeNode, serializeJSArray] at h
    simp only [calls, frameBytes]
    split at h
    · rename_i hs
      rw [if_pos hs, if_pos hs]
      have h2 : (itemVals o.items).length = o.items.length := by simp [itemVals]
      rw [← h2]
      exact nodeShaped_sparse _ _ ws ws' h
    · rename_i hs
      rw [if_neg hs, if_neg hs]
      refine (nodeShaped_dense _ _ ws ws' h).le ?_
      simp [propVals]
  | pylist els =>
    have := nodeShaped_dense (rec := rec) (x := x) els []
    simp only [pairCalls, List.flatMap_nil, List.append_nil, List.length_nil, Nat.add_zero] at this
    exact this
  | date d =>
    intro ws ws' h
    simp only [V8.serializeNode, V8.writeDate] at h
    split at h
    · cases h
    · exact nodeRun_record (((shaped_writeTag _).then (shaped_emit _)).le (by simp [writeDouble, frameBytes, frameSize])) h
  | primObj p => exact nodeShaped_record (shaped_primObj p)
  | regexp r => exact absurd rfl (hu r)
  | error name msg stack cause =>
    have hc : cause ≠ .null := fun hc => hu' name msg stack (by rw [hc])
    simp only [calls, if_neg hc]
    exact nodeShaped_error _ _ _ _ _ hc
  | abuf b =>
    intro ws ws' h
    simp only [V8.serializeNode, V8.writeArrayBuffer] at h
    simp only [calls, frameBytes, frameSize]
    split at h
    · unfold writeResizableBuffer at h
      split at h
      · cases h
      · exact nodeRun_record (((shaped_writeTag _).then ((shaped_emitE fun _ => writeUint32_length).then
          ((shaped_emitE fun _ => writeUint32_length).then (shaped_emit _)))).le (by omega)) h
    · exact (nodeRun_fixedBuffer _ h).le (by omega)
  | rawBuf m b => exact fun ws ws' h => nodeRun_fixedBuffer _ h
  | sharedBuf id =>
    intro ws ws' h
    simp only [V8.serializeNode, V8.writeBufferId] at h
    split at h
    · cases h
    · refine ((NodeShaped.first shaped_mark (nodeShaped_record ((shaped_writeTag _).then (shaped_emit _)))).le ?_) ws ws' h
      have := writeVarint_length_bits id.toNat
      have h2 : id.toNat = id.natAbs := by omega
      simp only [frameBytes, frameSize, h2] at *
      omega
  | transferBuf id =>
    intro ws ws' h
    simp only [V8.serializeNode, V8.writeBufferId] at h
    split at h
    · cases h
    · refine ((NodeShaped.first shaped_mark (nodeShaped_record ((shaped_writeTag _).then (shaped_emit _)))).le ?_) ws ws' h
      have := writeVarint_length_bits id.toNat
      have h2 : id.toNat = id.natAbs := by omega
      simp only [frameBytes, frameSize, h2] at *
      omega
  | view b w =>
    intro ws ws' h
    simp only [V8.serializeNode] at h
    split at h
    · cases h
    · exact nodeShaped_view env b w ws ws' h
  | sharedRef id =>
    exact (nodeShaped_record ((shaped_writeTag _).then (shaped_emitE fun _ => writeUint32_length))).le
      (by simp [frameBytes, frameSize])
  | other => exact fun ws ws' h => by cases h

theorem shaped_regexp (r : RegExp) : Shaped rec [] (frameSize (.regexp r)) (writeRegExp r) := by
  refine (shaped_mark.then ((shaped_writeTag _).then ((shaped_writeTagged _ fun _ => writeStringUtf8_length).then
    (shaped_emit _)))).le ?_
  have hf : canonicalFlags r.flags < 2 ^ 14 :=
    lt_of_le_of_lt Nat.and_le_right (by decide)
  have := writeVarint_length_le 1 _ hf
  simp only [frameSize]
  omega

/-- The runs for the value `x` after `deduplicate`. -/
inductive ValueRun (env : EEnv) (rec : Val → Wr) (x : Val) (ws ws' : WS) : Prop
  | scalar (hx : ∀ i, x ≠ .obj i) (hb : ∀ b, x ≠ .bytes b) {n : Nat} (hn : n ≤ scalarSize x) (h : Quiet n ws ws')
  | bytes {b : Bytes} (hx : x = .bytes b) (h : NodeRun rec .first x [] (6 + b.length) ws ws')
  | unlogged {i : Id} {node : Node} (hx : x = .obj i) (hi : env.heap[i]? = some node) (hu : IsUnlogged env x) {n : Nat}
      (hn : n ≤ frameSize node) (h : Quiet n ws ws')
  | logged {i : Id} {node : Node} (hx : x = .obj i) (hi : env.heap[i]? = some node) (hu : ¬ IsUnlogged env x)
      (h : NodeRun rec (modeOf env node) x (calls node) (frameBytes node) ws ws')

theorem tagWriter_run {env : EEnv} {ws ws' : WS} (h : tagWriter env rec x unhandledValue ws = .ok ws') :
    ValueRun env rec x ws ws' := by
  have sc : ∀ {w : Wr} {N : Nat}, (∀ i, x ≠ .obj i) → (∀ b, x ≠ .bytes b) → N ≤ scalarSize x → Shaped rec [] N w →
      w ws = .ok ws' → ValueRun env rec x ws ws' := by
    intro w N h1 h2 hN h3 h4
    obtain ⟨n, h5, h6⟩ := h3 _ _ h4
    exact .scalar h1 h2 (le_trans h5 hN) h6.nil_quiet
  cases x with
  | hole => exact sc (by simp) (by simp) (le_refl 1) (shaped_writeConstant _) h
  | undef => exact sc (by simp) (by simp) (le_refl 1) (shaped_writeConstant _) h
  | null => exact sc (by simp) (by simp) (le_refl 1) (shaped_writeConstant _) h
  | bool b => cases b <;> exact sc (by simp) (by simp) (le_refl 1) (shaped_writeConstant _) h
  | int n => exact sc (by simp) (by simp) (le_refl _) (shaped_int n) h
  | float y => exact sc (by simp) (by simp) (le_refl 9) (shaped_double y) h
  | str s =>
    exact sc (by simp) (by simp) (by simp only [scalarSize]; omega) (shaped_writeTagged _ fun _ => writeStringUtf8_length) h
  | bytes b => exact .bytes rfl (nodeRun_fixedBuffer _ h)
  | obj i =>
    cases hi : env.heap[i]? with
    | none => simp only [V8.tagWriter, hi] at h; cases h
    | some n =>
      simp only [V8.tagWriter, hi] at h
      by_cases hu : IsUnlogged env (.obj i)
      · have hu' := hu
        simp only [IsUnlogged, hi] at hu'
        cases n with
        | regexp r =>
          obtain ⟨n, h1, h2⟩ := shaped_regexp (rec := rec) r _ _ h
          exact .unlogged rfl hi hu h1 h2.nil_quiet
        | error name msg stack cause =>
          have hc : cause = .null := by
            cases cause <;> first | rfl | exact hu'.elim
          subst hc
          obtain ⟨n, h1, h2⟩ := shaped_error_null (rec := rec) _ name msg stack _ _ h
          exact .unlogged rfl hi hu h1 h2.nil_quiet
        | _ => exact hu'.elim
      · refine .logged rfl hi hu (nodeShaped_node env ?_ ?_ ws ws' h)
        · rintro r rfl; simp [IsUnlogged, hi] at hu
        · rintro a b c rfl; simp [IsUnlogged, hi] at hu

end

end V8
