import Verif.Proofs.DecodeStack
import Verif.Spec.Examples

/-!
# C21: the stack before and behind the cause
-/

namespace V8.Props
open V8 V8.Spec

/-- `C` is the encoding of a cause: reading it, when the error exists and has its number, gives `v`, leaves
the reader in `s2`, and uses up `C`. -/
def IsCause (env : DEnv) (f : Nat) (s : DS) (error : Node) (C : Bytes) (v : Val) (s2 : DS) : Prop :=
  decodeNext (decodeTag env f) C ((opened s error).at 0) = .ok (v, s2) ∧ s2.pos = C.length

/-- In any surroundings and any state, an Error in the old layout and one in the new layout decode to the same
value, leave the same objects and object numbers behind, and end at the same place; and the error has the
name, message, stack and cause that were encoded. -/
theorem C21_layouts_agree {env : DEnv} {f : Nat} {kind msg stk C : Bytes} {name message stack : Str}
    (hk : KindEnc kind name) (hm : MessageEnc msg message) (hs : TextEnc stk stack) (pre rest : Bytes) {s s2 : DS}
    (hp : s.pos = pre.length) {v : Val}
    (hc : IsCause env (f + 1) s (.error name (some message) (some stack) .null) C v s2) :
    ∃ s3 : DS, s3.log = s2.log ∧ s3.heap = s2.heap.set s.heap.length (.error name (some message) (some stack) v) ∧
      decodeTag env (f + 2) .kError (pre ++ newLayout kind msg stk C ++ rest) s = .ok (.obj s.heap.length, s3) ∧
      s3.pos = pre.length + (newLayout kind msg stk C).length ∧
      decodeTag env (f + 2) .kError (pre ++ oldLayout kind msg stk C ++ rest) s = .ok (.obj s.heap.length, s3) ∧
      s3.pos = pre.length + (oldLayout kind msg stk C).length := by
  obtain ⟨s3, h1, h2, h3, h4⟩ := layouts_run hk hm hs hc.1 hc.2
  have here : ∀ b : Bytes, Here (pre ++ b ++ rest) s.pos b rest := by
    intro b
    rw [hp]
    exact ⟨by simp, by simp⟩
  have eL : (oldLayout kind msg stk C).length = (newLayout kind msg stk C).length := by
    simp only [oldLayout, newLayout, List.length_append, List.length_cons]
    omega
  refine ⟨s3, h1, h2, h4 _ rest (.inl (here _)), by rw [h3, hp], h4 _ rest (.inr (here _)), by rw [h3, hp, eL]⟩

/-- The same for a message that consists of the error. -/
theorem C21_loads_agree {env : DEnv} {kind msg stk C : Bytes} {name message stack : Str} (hk : KindEnc kind name)
    (hm : MessageEnc msg message) (hs : TextEnc stk stack) {s2 : DS} {v : Val}
    (hc : IsCause env (C.length + 1) (DS.start 3 15) (.error name (some message) (some stack) .null) C v s2) :
    ∃ s3 : DS, s3.heap = s2.heap.set 0 (.error name (some message) (some stack) v) ∧
      loads env (0xff :: 0x0f :: 0x72 :: newLayout kind msg stk C) = .ok (.obj 0, s3) ∧
      loads env (0xff :: 0x0f :: 0x72 :: oldLayout kind msg stk C) = .ok (.obj 0, s3) := by
  have eL : (oldLayout kind msg stk C).length = (newLayout kind msg stk C).length := by
    simp only [oldLayout, newLayout, List.length_append, List.length_cons]
    omega
  have eC : C.length + 3 ≤ (newLayout kind msg stk C).length := by
    simp only [newLayout, List.length_append, List.length_cons, List.length_nil]
    omega
  obtain ⟨n, hn⟩ : ∃ n, (newLayout kind msg stk C).length = n := ⟨_, rfl⟩
  have hc' : IsCause env (n + 1) (DS.start 3 15) (.error name (some message) (some stack) .null) C v s2 := by
    refine ⟨?_, hc.2⟩
    have := (loc_closed.decodeNext (fun t => loc_closed.decodeTag env (C.length + 1) (n + 1) (by omega) t)
      _ _ _ _ hc.1).2 (by rw [hc.2]) [] (.inr (by simp))
    rw [List.append_nil] at this
    exact this
  obtain ⟨s3, h1, h2, h3, h4, h5, h6⟩ := C21_layouts_agree hk hm hs [0xff, 0x0f, 0x72] [] (s := DS.start 3 15) rfl hc'
  have root : ∀ L : Bytes, L.length = n →
      loads env (0xff :: 0x0f :: 0x72 :: L) = decodeTag env (n + 2) .kError ([0xff, 0x0f, 0x72] ++ L ++ []) (DS.start 3 15) := by
    intro L hL
    have hd : (0xff :: 0x0f :: 0x72 :: L : Bytes) = [0xff, 0x0f, 0x72] ++ L ++ [] := by simp
    rw [hd]
    have hh : Here ([0xff, 0x0f, 0x72] ++ L ++ []) 0 (writeHeader ++ ([0x72] ++ L)) [] := by
      refine ⟨Nat.zero_le _, ?_⟩
      rw [show writeHeader = [0xff, 0x0f] by decide +kernel]
      simp
    have hhead : readHeader ([0xff, 0x0f, 0x72] ++ L ++ []) 0 = .ok (15, 2) := by
      rw [hh.left.read readHeader_reads, show writeHeader = [0xff, 0x0f] by decide +kernel]
      rfl
    have htag : readAnyTag ([0xff, 0x0f, 0x72] ++ L ++ []) 2 = .ok (.kError, 3) := by
      have h2 := hh.right.left
      rw [show writeHeader.length = 2 by decide +kernel] at h2
      exact h2.read (readAnyTag_reads (t := .kError) (by decide))
    unfold loads
    rw [hhead]
    show (RM.lift readAnyTag >>= _) _ _ = _
    rw [RM.bind_ok (RM.lift_ok (s := DS.start 2 15) htag)]
    have hlen : ([0xff, 0x0f, 0x72] ++ L ++ [] : Bytes).length - 2 + 1 = n + 2 := by
      simp only [List.length_append, List.length_cons, List.length_nil, hL]
      omega
    rw [hlen]
    rfl
  refine ⟨s3, h2, ?_, ?_⟩
  · rw [root _ hn]; exact h3
  · rw [root _ (by rw [eL, hn])]; exact h5

/-- A stack in both places is an error in the data. -/
theorem C21_two_stacks_rejected {env : DEnv} {f : Nat} {kind msg stk C : Bytes} {name message stack : Str}
    (hk : KindEnc kind name) (hm : MessageEnc msg message) (hs : TextEnc stk stack) (pre rest : Bytes) {s s2 : DS}
    (hp : s.pos = pre.length) {v : Val}
    (hc : IsCause env (f + 1) s (.error name (some message) (some stack) .null) C v s2) :
    decodeTag env (f + 2) .kError (pre ++ (kind ++ msg ++ 115 :: (stk ++ 99 :: (C ++ [115]))) ++ rest) s
      = .error .decode := by
  have vs : writeVarint ErrTag.stack.code = [115] := by decide +kernel
  have vc : writeVarint ErrTag.cause.code = [99] := by decide +kernel
  have e : kind ++ msg ++ 115 :: (stk ++ 99 :: (C ++ [115])) = (kind ++ msg ++ writeVarint ErrTag.stack.code) ++
      ((stk ++ writeVarint ErrTag.cause.code) ++ (C ++ writeVarint ErrTag.stack.code)) := by
    simp [vs, vc]
  rw [e]
  generalize hd : pre ++ _ ++ rest = d
  have hh : Here d s.pos ((kind ++ msg ++ writeVarint ErrTag.stack.code) ++
      ((stk ++ writeVarint ErrTag.cause.code) ++ (C ++ writeVarint ErrTag.stack.code))) rest := by
    rw [← hd, hp]
    exact ⟨by simp, by simp⟩
  have h1 := hh.right
  have h2 := h1.right
  have l1 : (kind ++ msg ++ writeVarint ErrTag.stack.code).length = kind.length + msg.length + 1 := by simp [vs]; omega
  have l2 : (stk ++ writeVarint ErrTag.cause.code).length = stk.length + 1 := by simp [vc]
  rw [l1] at h1 h2
  rw [l2] at h2
  obtain ⟨h', k2, k1⟩ := tail_run hc.1 hc.2 (some stack) ((if msg = [] then 0 else 1) + 1) h2
  rw [decodeTag_run]
  show decodeError _ d _ = _
  rw [errStart hk hm (next := .stack) (.inr rfl) d { s with calls := s.calls + 1 } _ hh.left,
    RM.bind_ok (text_read hs (want := .stack) (next := .cause)
      (ds := { s with pos := s.pos + (kind.length + msg.length + 1), calls := s.calls + 1 + (if msg = [] then 0 else 1) }) h1.left)]
  refine Eq.trans k1 ?_
  rw [RM.bind_ok (x := readLateStack _ _ _) rfl, RM.bind_error (x := checkErrEnd _) rfl]

/-- A RangeError "m" whose cause is a list of the error itself and a number, with a stack in Latin-1. -/
def causeBytes : Bytes := [0x41, 2, 0x5e, 0, 0x49, 6, 0x24, 0, 2]

theorem causeBytes_ok : ∃ v s2, IsCause exampleDec (causeBytes.length + 1) (DS.start 3 15)
    (.error (str "RangeError") (some [109]) (some [233, 116]) .null) causeBytes v s2 := by
  obtain ⟨s2, h1, _, h2⟩ := result_ok (r := decodeNext (decodeTag exampleDec (causeBytes.length + 1)) causeBytes
    ((opened (DS.start 3 15) (.error (str "RangeError") (some [109]) (some [233, 116]) .null)).at 0))
    (v := .obj 1) (h := [.error (str "RangeError") (some [109]) (some [233, 116]) .null,
      .jsarr ⟨.dense ⟨[some (.obj 0), some (.int 3)], 2⟩, []⟩]) (p := 9) (by decide +kernel)
  exact ⟨_, s2, h1, h2⟩

example : ∃ s3 : DS,
    loads exampleDec [0xff, 0x0f, 0x72, 82, 109, 0x53, 1, 109, 115, 0x22, 2, 233, 116, 99, 0x41, 2, 0x5e, 0, 0x49, 6, 0x24, 0, 2, 46]
      = .ok (.obj 0, s3) ∧
    loads exampleDec [0xff, 0x0f, 0x72, 82, 109, 0x53, 1, 109, 99, 0x41, 2, 0x5e, 0, 0x49, 6, 0x24, 0, 2, 115, 0x22, 2, 233, 116, 46]
      = .ok (.obj 0, s3) := by
  obtain ⟨v, s2, hc⟩ := causeBytes_ok
  have one : ∀ n : Nat, n < 3 → writeVarint n = [UInt8.ofNat n] := by decide +kernel
  have t1 : TextEnc [0x53, 1, 109] [109] := by
    have := TextEnc.utf8 [109] [109] (by decide)
    rwa [one _ (by decide)] at this
  have t2 : TextEnc [0x22, 2, 233, 116] [233, 116] := by
    have := TextEnc.latin1 [233, 116] [233, 116] (by decide)
    rwa [one _ (by decide)] at this
  obtain ⟨s3, _, h1, h2⟩ := C21_loads_agree (msg := [109, 0x53, 1, 109]) (stk := [0x22, 2, 233, 116]) .range
    (.text _ _ t1) t2 hc
  exact ⟨s3, h1, h2⟩

end V8.Props
