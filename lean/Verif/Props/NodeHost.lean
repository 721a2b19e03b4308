import Verif.Model.NodeHost
import Verif.Proofs.DecodeBounds
import Verif.Proofs.RoundTripLeaf
import Verif.Spec.Examples

/-!
# C38: views as Node.js host objects
-/

namespace V8.Props
open V8 V8.Spec

/-- The numbers by which Node.js names the kinds of views (lib/v8.js, `arrayBufferViewTypeToIndex`); 10 is
its Buffer, which is read as a Uint8Array. -/
def nodeNumber : ViewTag → Option Nat
  | .int8 => some 0
  | .uint8 => some 1
  | .uint8Clamped => some 2
  | .int16 => some 3
  | .uint16 => some 4
  | .int32 => some 5
  | .uint32 => some 6
  | .float32 => some 7
  | .float64 => some 8
  | .dataView => some 9
  | .bigInt64 => some 11
  | .bigUint64 => some 12
  | .float16 => none

/-- C38: the numbers written and read are those of Node.js. -/
theorem C38_numbers (t : ViewTag) (c : Nat) :
    (nodeCodeOfView t = nodeNumber t) ∧ (nodeViewOfCode c = some t ↔ nodeNumber t = some c ∨ (c = 10 ∧ t = .uint8)) := by
  refine ⟨by cases t <;> rfl, ?_⟩
  by_cases hc : c ≤ 12
  · rcases (by omega : c = 0 ∨ c = 1 ∨ c = 2 ∨ c = 3 ∨ c = 4 ∨ c = 5 ∨ c = 6 ∨ c = 7 ∨ c = 8 ∨ c = 9 ∨ c = 10 ∨ c = 11 ∨
      c = 12) with rfl | rfl | rfl | rfl | rfl | rfl | rfl | rfl | rfl | rfl | rfl | rfl | rfl <;> cases t <;> decide
  · have h1 : nodeViewOfCode c = none := by
      unfold nodeViewOfCode
      rw [List.find?_eq_none.2]
      · rfl
      · intro e he
        simp only [nodeFormats, List.mem_cons, List.not_mem_nil, or_false] at he
        simp only [beq_iff_eq]
        rcases he with rfl | rfl | rfl | rfl | rfl | rfl | rfl | rfl | rfl | rfl | rfl | rfl | rfl <;> simp only <;> omega
    rw [h1]
    cases t <;> simp [nodeNumber] <;> omega

theorem nodeView_code {t : ViewTag} {c : Nat} (h : nodeCodeOfView t = some c) : nodeViewOfCode c = some t ∧ c ≤ 12 := by
  cases t <;> simp [nodeCodeOfView, nodeFormats] at h <;> subst h <;> exact ⟨rfl, by decide⟩

theorem view_bytes_items (v : View) (mv : Bytes) : ∃ k, (v.bytes mv).length = k * v.tag.size := by
  unfold View.bytes View.region
  cases v.itemLength with
  | some n =>
    simp only
    split
    · exact ⟨0, by simp⟩
    · refine ⟨n, ?_⟩
      simp only [List.length_take, List.length_drop]
      omega
  | none =>
    refine ⟨(mv.length - v.itemOffset * v.tag.size) / v.tag.size, ?_⟩
    simp only [List.length_take, List.length_drop]
    have := Nat.div_mul_le_self (mv.length - v.itemOffset * v.tag.size) v.tag.size
    omega

theorem whole_view (t : ViewTag) (mv : Bytes) (k : Nat) (h : mv.length = k * t.size) :
    View.bytes ⟨t, 0, none⟩ mv = mv := by
  have hpos : 0 < t.size := by cases t <;> decide
  simp only [View.bytes, View.region, Nat.zero_mul, List.drop_zero, Nat.sub_zero]
  rw [h, Nat.mul_div_cancel _ hpos, ← h, List.take_length]

theorem node_after {denv : DEnv} {f : Nat} {d : Bytes} {s : DS} (hn : denv.nodejs = true) {t : ViewTag} {data : Bytes} {p : Nat}
    (hr : readNodeContents d s.pos = .ok ((t, data), p)) :
    decodeTag denv (f + 1) .kHostObject d s
      = .ok (.obj (s.heap.length + 1), { s with pos := p, calls := s.calls + 1, heap := s.heap ++ [.abuf ⟨data, data.length, false⟩, .view (.obj s.heap.length) ⟨t, 0, none⟩] }) := by
  rw [decodeTag_run]
  show decodeHostObject denv d _ = _
  unfold decodeHostObject
  rw [if_pos hn]
  unfold decodeNodeHostObject
  rw [RM.bind_ok (RM.lift_ok (s := { s with calls := s.calls + 1 }) hr)]
  have hb : ABuf.mk' data none false false = .ok ⟨data, data.length, false⟩ := by
    simp [ABuf.mk']
  show (orRaise (ABuf.mk' data none false false) >>= _) d _ = _
  rw [hb, RM.bind_ok (x := orRaise _) rfl, RM.bind_ok (x := alloc _) rfl]
  show (orRaise (View.mk' t 0 none) >>= _) d _ = _
  rw [RM.bind_ok (x := orRaise _) rfl, RM.bind_ok (x := alloc _) rfl]
  simp [RM.pure_apply]

/-- What is read: the two objects that are made. -/
theorem node_read {denv : DEnv} (hn : denv.nodejs = true) {t : ViewTag} {code : Nat} (hc : nodeViewOfCode code = some t)
    (hc' : code < 2 ^ 32) {data : Bytes} (hd : data.length < 2 ^ 32) {f : Nat} {d : Bytes} {s : DS} {suf : Bytes}
    (hh : Here d s.pos (writeVarint code ++ (writeVarint data.length ++ data)) suf) :
    decodeTag denv (f + 1) .kHostObject d s
      = .ok (.obj (s.heap.length + 1),
          { s with pos := s.pos + (writeVarint code ++ (writeVarint data.length ++ data)).length, calls := s.calls + 1, heap := s.heap ++ [.abuf ⟨data, data.length, false⟩, .view (.obj s.heap.length) ⟨t, 0, none⟩] }) := by
  have hr : readNodeContents d s.pos
      = .ok ((t, data), s.pos + (writeVarint code ++ (writeVarint data.length ++ data)).length) := by
    have h2 := hh.right
    have h3 := h2.right
    unfold readNodeContents
    rw [Rd.bind_ok (hh.left.read (readUint32_reads hc')), Rd.bind_ok (h2.left.read (readUint32_reads hd))]
    unfold nodeViewTag
    rw [hc, Rd.bind_ok (x := Rd.pure t) rfl]
    have hlen := h3.len
    have hfit : checkFits data.length d (s.pos + (writeVarint code).length + (writeVarint data.length).length)
        = .ok ((), s.pos + (writeVarint code).length + (writeVarint data.length).length) := by
      unfold checkFits
      rw [if_neg (by omega)]
    rw [Rd.bind_ok hfit]
    have htake : takeHere data.length d (s.pos + (writeVarint code).length + (writeVarint data.length).length)
        = .ok (data, s.pos + (writeVarint code).length + (writeVarint data.length).length + data.length) := by
      unfold takeHere
      rw [h3.2]
      simp
    rw [Rd.bind_ok htake]
    simp only [List.length_append, ← Nat.add_assoc]
    rfl
  exact node_after hn hr

theorem writeNodeView_ok {env : EEnv} {code : Nat} {backing : Val} {v : View} {ws ws' : WS}
    (h : writeNodeView env code backing v ws = .ok ws') :
    code < 2 ^ 32 ∧ (v.bytes ((backingBytes env.heap backing).getD [])).length < 2 ^ 32 ∧
      ws' = { ws with data := ws.data ++ 0x5c :: (writeVarint code ++
        (writeVarint (v.bytes ((backingBytes env.heap backing).getD [])).length ++ v.bytes ((backingBytes env.heap backing).getD []))) } := by
  unfold writeNodeView at h
  generalize v.bytes ((backingBytes env.heap backing).getD []) = data at h ⊢
  obtain ⟨w1, h1, h⟩ := Except.bind_eq_ok h
  obtain ⟨w2, h2, h⟩ := Except.bind_eq_ok h
  obtain ⟨w3, h3, h⟩ := Except.bind_eq_ok h
  obtain ⟨rfl, _⟩ := writeTag_ok h1
  obtain ⟨b2, e2, rfl⟩ := emitE_ok h2
  obtain ⟨b3, e3, rfl⟩ := emitE_ok h3
  obtain ⟨l2, rfl⟩ := writeUint32_eq e2
  obtain ⟨l3, rfl⟩ := writeUint32_eq e3
  refine ⟨l2, l3, ?_⟩
  rw [emit_ok h]
  simp [Tag.byte]

/-- The bytes that a view object exposes (`get_buffer_as_memoryview`). -/
def exposes (h : Heap) (backing : Val) (v : View) : Bytes := v.bytes ((backingBytes h backing).getD [])

/-- A view of any kind but Float16Array that the step writes is read back, from any surroundings and in any
state, as a new view of the same kind on a new buffer, exposing the same bytes; the object numbers stay as
they are on both sides. -/
theorem C38_view_comes_back {env : EEnv} {denv : DEnv} (hn : denv.nodejs = true) {i : Id} {backing : Val} {v : View}
    (hi : env.heap[i]? = some (.view backing v)) (hv : v.tag ≠ .float16) {rec next : Val → Wr} {ws ws' : WS}
    (h : nodeHostStep env rec (.obj i) next ws = .ok ws') :
    ∃ B, ws' = { ws with data := ws.data ++ B } ∧
      ∀ (pre suf : Bytes) (s : DS) (f : Nat), s.pos = pre.length →
        ∃ (s' : DS) (b : ABuf) (v' : View),
          decodeNext (decodeTag denv (f + 1)) (pre ++ B ++ suf) s = .ok (.obj (s.heap.length + 1), s') ∧
          s'.pos = (pre ++ B).length ∧ s'.log = s.log ∧
          s'.heap = s.heap ++ [.abuf b, .view (.obj s.heap.length) v'] ∧ v'.tag = v.tag ∧
          exposes s'.heap (.obj s.heap.length) v' = exposes env.heap backing v := by
  obtain ⟨code, hcode⟩ : ∃ code, nodeCodeOfView v.tag = some code := by
    cases ht : v.tag <;> first | exact ⟨_, rfl⟩ | exact absurd ht hv
  simp only [nodeHostStep, hi, hcode] at h
  obtain ⟨hc, hd, hws⟩ := writeNodeView_ok h
  refine ⟨_, hws, ?_⟩
  intro pre suf s f hp
  obtain ⟨k, hk⟩ := view_bytes_items v ((backingBytes env.heap backing).getD [])
  unfold exposes
  generalize v.bytes ((backingBytes env.heap backing).getD []) = data at *
  generalize hB : writeVarint code ++ (writeVarint data.length ++ data) = B
  have hh : Here (pre ++ 0x5c :: B ++ suf) s.pos (0x5c :: B) suf := by
    rw [hp]
    exact ⟨by simp, by simp⟩
  have htag : readAnyTag (pre ++ 0x5c :: B ++ suf) s.pos = .ok (.kHostObject, s.pos + 1) :=
    hh.uncons.1.read (readAnyTag_reads (t := .kHostObject) (by decide))
  have hrun := node_read (f := f) hn (nodeView_code hcode).1 hc hd (s := { s with pos := s.pos + 1 }) (by rw [hB]; exact hh.uncons.2)
  rw [hB] at hrun
  refine ⟨{ s with pos := s.pos + 1 + B.length, calls := s.calls + 1, heap := s.heap ++ [.abuf ⟨data, data.length, false⟩, .view (.obj s.heap.length) ⟨v.tag, 0, none⟩] }, ⟨data, data.length, false⟩, ⟨v.tag, 0, none⟩, ?_, ?_, rfl, rfl, rfl, ?_⟩
  · show (RM.lift readAnyTag >>= _) _ _ = _
    rw [RM.bind_ok (RM.lift_ok htag)]
    exact hrun
  · simp [hp]
    omega
  · simp only [backingBytes, List.getElem?_append_right (Nat.le_refl _), Nat.sub_self, List.getElem?_cons_zero,
      Option.getD_some, ABuf.exposed, List.take_length]
    exact whole_view _ _ k hk

/-- Anything else goes to the next step. -/
theorem C38_others_unchanged {env : EEnv} {v : Val} (h : ∀ i backing w, v = .obj i → env.heap[i]? = some (.view backing w) →
    w.tag = .float16) (rec next : Val → Wr) : nodeHostStep env rec v next = next v := by
  unfold nodeHostStep
  cases v with
  | obj i =>
    simp only
    split
    · rename_i backing w hi
      rw [h i backing w rfl hi]
      rfl
    · rfl
  | _ => rfl

/-- The step writes every view that exposes less than 4 GiB, wherever any tag may be written. -/
theorem C38_view_written {env : EEnv} {i : Id} {backing : Val} {v : View} (hi : env.heap[i]? = some (.view backing v))
    (hv : v.tag ≠ .float16) (hl : (exposes env.heap backing v).length < 2 ^ 32) (rec next : Val → Wr) {ws : WS}
    (ha : ws.allowed = none) : ∃ ws', nodeHostStep env rec (.obj i) next ws = .ok ws' := by
  obtain ⟨code, hcode⟩ : ∃ code, nodeCodeOfView v.tag = some code := by
    cases ht : v.tag <;> first | exact ⟨_, rfl⟩ | exact absurd ht hv
  simp only [nodeHostStep, hi, hcode]
  unfold writeNodeView
  unfold exposes at hl
  generalize v.bytes ((backingBytes env.heap backing).getD []) = data at hl ⊢
  have hc : code < 2 ^ 32 := by have := (nodeView_code hcode).2; omega
  have key : ∀ (r1 r2 : Except EErr Bytes) (b1 b2 : Bytes), r1 = .ok b1 → r2 = .ok b2 →
      ∃ ws', (do let w ← writeTag .kHostObject ws; let w ← emitE r1 w; let w ← emitE r2 w; emit data w) = .ok ws' := by
    rintro _ _ b1 b2 rfl rfl
    simp only [emitE, writeTag, ha, emit, bind, Except.bind]
    exact ⟨_, rfl⟩
  exact key _ _ _ _ (writeUint32_ok hc) (writeUint32_ok hl)

/-- A message that consists of the view. -/
theorem C38_message_comes_back {env : EEnv} {denv : DEnv} (hn : denv.nodejs = true) {i : Id} {backing : Val} {v : View}
    (hi : env.heap[i]? = some (.view backing v)) (hv : v.tag ≠ .float16) {f : Nat} {ws : WS}
    (h : dumpsWith (nodeEncodeSteps env) (f + 1) (.obj i) = .ok ws) :
    ∃ (s : DS) (b : ABuf) (v' : View), loads denv ws.data = .ok (.obj 1, s) ∧
      s.heap = [.abuf b, .view (.obj 0) v'] ∧ v'.tag = v.tag ∧
      exposes s.heap (.obj 0) v' = exposes env.heap backing v := by
  obtain ⟨w1, h1, h2⟩ := Except.bind_eq_ok h
  have e1 := emit_ok h1
  rw [encodeWith, chainFrom, dif_pos (by simp [nodeEncodeSteps])] at h2
  have h3 : nodeHostStep env (encodeWith (nodeEncodeSteps env) f) (.obj i)
      (fun u => chainFrom unhandledValue ((nodeEncodeSteps env).map (fun s => s (encodeWith (nodeEncodeSteps env) f))) 1 u) w1
      = .ok ws := h2
  obtain ⟨B, hB, hr⟩ := C38_view_comes_back hn hi hv h3
  have hdata : ws.data = [0xff, 0x0f] ++ B ++ [] := by
    rw [hB, e1]
    have : writeHeader = [0xff, 0x0f] := by decide +kernel
    simp [WS.new, this]
  have hhead : readHeader ([0xff, 0x0f] ++ B ++ []) 0 = .ok (15, 2) := by
    have hh : Here ([0xff, 0x0f] ++ B ++ []) 0 writeHeader B := by
      rw [show writeHeader = [0xff, 0x0f] by decide +kernel]
      exact ⟨by simp, by simp⟩
    rw [hh.read readHeader_reads, show writeHeader = [0xff, 0x0f] by decide +kernel]
    rfl
  obtain ⟨s', b, v', k1, k2, k3, k4, k5, k6⟩ := hr [0xff, 0x0f] [] (DS.start 2 15) (([0xff, 0x0f] ++ B ++ [] : Bytes).length - 2) rfl
  refine ⟨s', b, v', ?_, k4, k5, k6⟩
  rw [hdata]
  unfold loads
  rw [hhead]
  exact k1

/-! ## Bad data -/

theorem uint32_error {d : Bytes} {p : Nat} {e : DErr} (h : readUint32 d p = .error e) : e = .decode := by
  unfold readUint32 at h
  cases hv : readVarint (some 32) d p with
  | error e' =>
    rw [Rd.bind_error hv] at h
    simp only [Except.error.injEq] at h
    rw [← h]
    exact readVarintLoop_error hv
  | ok r =>
    obtain ⟨n, q⟩ := r
    rw [Rd.bind_ok hv] at h
    split at h
    · cases h
    · cases h; rfl

theorem nodeContents_error {d : Bytes} {p : Nat} {e : DErr} (h : readNodeContents d p = .error e) : e = .decode := by
  unfold readNodeContents at h
  cases h1 : readUint32 d p with
  | error e1 =>
    rw [Rd.bind_error h1] at h
    cases h
    exact uint32_error h1
  | ok r1 =>
    obtain ⟨code, p1⟩ := r1
    rw [Rd.bind_ok h1] at h
    cases h2 : readUint32 d p1 with
    | error e1 =>
      rw [Rd.bind_error h2] at h
      cases h
      exact uint32_error h2
    | ok r2 =>
      obtain ⟨n, p2⟩ := r2
      rw [Rd.bind_ok h2] at h
      unfold nodeViewTag at h
      cases hc : nodeViewOfCode code with
      | none =>
        rw [hc, Rd.bind_error (x := throwD) rfl] at h
        cases h; rfl
      | some t =>
        rw [hc, Rd.bind_ok (x := Rd.pure t) rfl] at h
        cases h3 : checkFits n d p2 with
        | error e1 =>
          rw [Rd.bind_error h3] at h
          cases h
          unfold checkFits at h3
          split at h3
          · cases h3; rfl
          · cases h3
        | ok r3 =>
          obtain ⟨u, p3⟩ := r3
          rw [Rd.bind_ok h3, Rd.bind_ok (x := takeHere n) rfl] at h
          cases h

theorem node_fails {denv : DEnv} {f : Nat} {d : Bytes} {s : DS} {e : DErr} (hr : readNodeContents d s.pos = .error e) :
    decodeTag denv (f + 1) .kHostObject d s = .error .decode := by
  rw [decodeTag_run]
  show decodeHostObject denv d _ = _
  unfold decodeHostObject
  split
  · unfold decodeNodeHostObject
    rw [RM.bind_error (RM.lift_error (s := { s with calls := s.calls + 1 }) hr), nodeContents_error hr]
  · rfl

/-- On any data, reading a host object gives a view of a known kind on a new buffer or raises a
DecodeV8SerializeError, also when there is no handler. -/
theorem C38_only_decode_errors (denv : DEnv) (f : Nat) (d : Bytes) (s : DS) :
    (∃ b v s', decodeTag denv (f + 1) .kHostObject d s = .ok (.obj (s.heap.length + 1), s') ∧
      s'.heap = s.heap ++ [.abuf b, .view (.obj s.heap.length) v]) ∨
    decodeTag denv (f + 1) .kHostObject d s = .error .decode := by
  cases hr : readNodeContents d s.pos with
  | error e => exact .inr (node_fails hr)
  | ok r =>
    obtain ⟨⟨t, data⟩, p⟩ := r
    by_cases hn : denv.nodejs = true
    · exact .inl ⟨_, _, _, node_after hn hr, rfl⟩
    · right
      rw [decodeTag_run]
      show decodeHostObject denv d _ = _
      unfold decodeHostObject
      rw [if_neg hn]
      rfl

theorem readVarintLoop_any {m : Nat} {bs : Bytes} {off acc p n q : Nat}
    (h : readVarintLoop (some m) bs off acc p = .ok (n, q)) : readVarintLoop none bs off acc p = .ok (n, q) := by
  induction bs generalizing off acc p with
  | nil => cases h
  | cons b t ih =>
    simp only [readVarintLoop] at h ⊢
    split
    · rename_i hb
      rw [if_pos hb] at h
      exact h
    · rename_i hb
      rw [if_neg hb] at h
      split at h
      · cases h
      · exact ih h

/-- A number that is read as a uint32 is the number that was written. -/
theorem uint32_written {d : Bytes} {p n m q : Nat} {suf : Bytes} (hh : Here d p (writeVarint n) suf)
    (h : readUint32 d p = .ok (m, q)) : m = n ∧ q = p + (writeVarint n).length := by
  unfold readUint32 at h
  cases hv : readVarint (some 32) d p with
  | error e => rw [Rd.bind_error hv] at h; cases h
  | ok r =>
    obtain ⟨k, q'⟩ := r
    rw [Rd.bind_ok hv] at h
    have h1 : readVarint none d p = .ok (k, q') := readVarintLoop_any hv
    rw [hh.read (readVarint_reads n)] at h1
    simp only [Except.ok.injEq, Prod.mk.injEq] at h1
    split at h
    · cases h
      exact ⟨h1.1.symm, h1.2.symm⟩
    · cases h

/-- What data the handler accepts. -/
theorem nodeContents_written {d : Bytes} {p code n : Nat} {rest : Bytes} {t : ViewTag} {data : Bytes} {q : Nat}
    (hh : Here d p (writeVarint code ++ writeVarint n) rest) (h : readNodeContents d p = .ok ((t, data), q)) :
    nodeViewOfCode code = some t ∧ data = rest.take n ∧ n ≤ rest.length := by
  unfold readNodeContents at h
  obtain ⟨c', p1, h1, h⟩ := Rd.bind_eq_ok h
  obtain ⟨rfl, rfl⟩ := uint32_written hh.left h1
  obtain ⟨n', p2, h2, h⟩ := Rd.bind_eq_ok h
  obtain ⟨rfl, rfl⟩ := uint32_written hh.right h2
  obtain ⟨t', p3, h3, h⟩ := Rd.bind_eq_ok h
  obtain ⟨u, p4, h4, h⟩ := Rd.bind_eq_ok h
  obtain ⟨bs, p5, h5, h⟩ := Rd.bind_eq_ok h
  have hlen := hh.len
  simp only [List.length_append] at hlen
  have ht : nodeViewOfCode c' = some t' ∧ p3 = p + (writeVarint c').length + (writeVarint n').length := by
    unfold nodeViewTag at h3
    cases ht0 : nodeViewOfCode c' with
    | none => rw [ht0] at h3; cases h3
    | some t0 =>
      rw [ht0] at h3
      cases h3
      exact ⟨rfl, rfl⟩
  obtain ⟨ht, rfl⟩ := ht
  have hf : n' ≤ rest.length ∧ p4 = p + (writeVarint c').length + (writeVarint n').length := by
    unfold checkFits at h4
    split at h4
    · cases h4
    · cases h4
      exact ⟨by omega, rfl⟩
  obtain ⟨hf, rfl⟩ := hf
  cases h5
  cases h
  refine ⟨ht, ?_, hf⟩
  have hd : d.drop (p + (writeVarint c').length + (writeVarint n').length) = rest := by
    have h7 := hh.2
    rw [Nat.add_assoc, ← List.length_append, ← List.drop_drop, h7, List.drop_left]
  rw [hd]

/-- An unknown code is rejected, whatever follows. -/
theorem C38_unknown_code_rejected {denv : DEnv} {f : Nat} (pre : Bytes) (code n : Nat) (rest : Bytes) (hc : 12 < code)
    {s : DS} (hp : s.pos = pre.length) :
    decodeTag denv (f + 1) .kHostObject (pre ++ (writeVarint code ++ writeVarint n ++ rest)) s = .error .decode := by
  have hh : Here (pre ++ (writeVarint code ++ writeVarint n ++ rest)) s.pos (writeVarint code ++ writeVarint n) rest := by
    rw [hp]
    exact ⟨by simp, by simp⟩
  cases hr : readNodeContents (pre ++ (writeVarint code ++ writeVarint n ++ rest)) s.pos with
  | error e => exact node_fails hr
  | ok r =>
    have h1 := (nodeContents_written hh hr).1
    have h2 : nodeViewOfCode code = none := by
      have : ∀ e ∈ nodeFormats, ¬ (e.1 == code) = true := by
        intro e he
        have : e.1 ≤ 12 := (by decide : ∀ e ∈ nodeFormats, e.1 ≤ 12) e he
        simp only [beq_iff_eq]
        omega
      simp only [nodeViewOfCode, List.find?_eq_none.mpr this, Option.map_none]
    rw [h2] at h1
    cases h1

/-- Fewer bytes than announced are rejected. -/
theorem C38_short_data_rejected {denv : DEnv} {f : Nat} (pre : Bytes) (code n : Nat) (rest : Bytes) (hr : rest.length < n)
    {s : DS} (hp : s.pos = pre.length) :
    decodeTag denv (f + 1) .kHostObject (pre ++ (writeVarint code ++ writeVarint n ++ rest)) s = .error .decode := by
  have hh : Here (pre ++ (writeVarint code ++ writeVarint n ++ rest)) s.pos (writeVarint code ++ writeVarint n) rest := by
    rw [hp]
    exact ⟨by simp, by simp⟩
  cases hr : readNodeContents (pre ++ (writeVarint code ++ writeVarint n ++ rest)) s.pos with
  | error e => exact node_fails hr
  | ok r =>
    have := (nodeContents_written hh hr).2.2
    omega

/-- Data whose length is no multiple of the item size is accepted; the view does not expose the rest. -/
theorem C38_partial_item_hidden : ∃ s, loads exampleDec [0xff, 0x0f, 0x5c, 5, 6, 1, 2, 3, 4, 5, 6] = .ok (.obj 1, s) ∧
    s.heap = [.abuf ⟨[1, 2, 3, 4, 5, 6], 6, false⟩, .view (.obj 0) ⟨.int32, 0, none⟩] ∧
    exposes s.heap (.obj 0) ⟨.int32, 0, none⟩ = [1, 2, 3, 4] := by
  obtain ⟨s, h1, h2, _⟩ := result_ok (r := loads exampleDec [0xff, 0x0f, 0x5c, 5, 6, 1, 2, 3, 4, 5, 6]) (v := .obj 1)
    (h := [.abuf ⟨[1, 2, 3, 4, 5, 6], 6, false⟩, .view (.obj 0) ⟨.int32, 0, none⟩]) (p := 11) (by decide +kernel)
  exact ⟨s, h1, h2, by rw [h2]; decide +kernel⟩

/-- A Uint16Array on the middle of a buffer. -/
def nodeExample : Heap := [.view (.obj 1) ⟨.uint16, 1, some 2⟩, .abuf ⟨[0, 1, 2, 3, 4, 5, 6], 7, false⟩]

example : ∃ ws, dumpsWith (nodeEncodeSteps (exampleEnc nodeExample)) 1 (.obj 0) = .ok ws ∧
    ws.data = [0xff, 0x0f, 0x5c, 4, 4, 2, 3, 4, 5] := by
  have h : (dumpsWith (nodeEncodeSteps (exampleEnc nodeExample)) 1 (.obj 0)).toOption.map (·.data)
      = some [0xff, 0x0f, 0x5c, 4, 4, 2, 3, 4, 5] := by decide +kernel
  cases hw : dumpsWith (nodeEncodeSteps (exampleEnc nodeExample)) 1 (.obj 0) with
  | error e => rw [hw] at h; simp [Except.toOption] at h
  | ok ws => rw [hw] at h; exact ⟨ws, rfl, by simpa [Except.toOption] using h⟩

example : (exampleEnc nodeExample).heap[0]? = some (.view (.obj 1) ⟨.uint16, 1, some 2⟩) ∧
    exposes nodeExample (.obj 1) ⟨.uint16, 1, some 2⟩ = [2, 3, 4, 5] := by decide +kernel

/-- Host objects get no number, neither from the writer nor from the reader: one view that occurs twice comes back as
two, with a buffer each. -/
theorem C38_shared_view_duplicated :
    (match dumpsWith (nodeEncodeSteps (exampleEnc [.pylist [.obj 1, .obj 1], .view (.obj 2) ⟨.uint8, 0, none⟩,
        .abuf ⟨[7], 1, false⟩])) 5 (.obj 0) with
      | .ok ws => result (loads exampleDec ws.data)
      | .error _ => none) =
    some (.obj 0, [.jsarr ⟨.dense ⟨[some (.obj 2), some (.obj 4)], 2⟩, []⟩,
      .abuf ⟨[7], 1, false⟩, .view (.obj 1) ⟨.uint8, 0, none⟩,
      .abuf ⟨[7], 1, false⟩, .view (.obj 3) ⟨.uint8, 0, none⟩], 15) := by decide +kernel

/-- V8 does number host objects.  `v8.serialize(new Set([new Uint8Array([7]), a, new Map([[a, a]])]))` with an empty
Set `a` (the objects 0, 1, 2, 3; so `a` is number 2) is read as a Map whose key and value are the Map itself. -/
theorem C38_reference_after_host_object_astray :
    result (loads exampleDec [0xff, 0x0f, 0x27, 0x5c, 1, 1, 7, 0x27, 0x2c, 0, 0x3b, 0x5e, 2, 0x5e, 2, 0x3a, 2, 0x2c, 3]) =
    some (.obj 0, [.jsset [.obj 2, .obj 3, .obj 4], .abuf ⟨[7], 1, false⟩, .view (.obj 1) ⟨.uint8, 0, none⟩,
      .jsset [], .jsmap [(.obj 4, .obj 4)]], 19) := by decide +kernel

end V8.Props
