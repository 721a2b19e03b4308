import Verif.Props.EncodeGlobal
import Verif.Proofs.EncodeWire
import Verif.Spec.Bodies

/-! Properties of the bytes the encoder writes: C19 (writer), C23. -/

namespace V8.Props
open Spec

/-! ## C23 -/

/-- C23, C19: what `dumps` writes is the header and a value of the grammar of `Spec/Wire.lean`, for the
features that are enabled.  So there is no resizable buffer without the feature (`Wire.resizable` needs
it), no Float16Array without the feature (`Wire.view`), and every property key is a number or a string
(`WireKey`). -/
theorem C23_output_in_grammar (env : EEnv) {v : Val} {bytes : Bytes} (h : dumps env v = .ok bytes) :
    ∃ b, bytes = 0xff :: 0x0f :: b ∧ Wire env.feats b := by
  obtain ⟨ws, hws, rfl⟩ := dumps_state h
  rw [dumpsState_eq] at hws
  obtain ⟨_, b, h1, h2⟩ := (encode_wire env _).val v _ _ rfl hws
  have hh : WS.headed.data = [0xff, 0x0f] := by decide +kernel
  exact ⟨b, by rw [h1, hh]; rfl, h2⟩

/-- The features that C23 is about, all disabled. -/
def noFeatures (h : Heap) : EEnv := { exampleEnc h with feats := ⟨false, false, false, false⟩ }

/-- A resizable buffer of two bytes is written as a plain one, and the Float16Array is refused. -/
example : dumps (noFeatures [.pylist [.obj 1], .abuf ⟨[1, 2, 0, 0], 4, true⟩]) (.obj 0) =
      dumps (noFeatures [.pylist [.obj 1], .abuf ⟨[1, 2, 0, 0], 4, false⟩]) (.obj 0) ∧
    (dumps (noFeatures [.pylist [.obj 1], .abuf ⟨[1, 2, 0, 0], 4, true⟩]) (.obj 0)).toOption.isSome = true ∧
    dumps (noFeatures [.abuf ⟨[1, 2, 0, 0], 4, false⟩, .view (.obj 0) ⟨.float16, 0, some 1⟩]) (.obj 1) =
      .error .unhandledValue := by decide +kernel

/-- Recorded objects are ones that `TagWriter` accepted. -/
theorem recorded_accepted {env : EEnv} {P : Val → Prop}
    (hP : ∀ f x ws ws', tagWriter env (encodeObject env f) x unhandledValue ws = .ok ws' → P x) (f : Nat) :
    ∀ v ws ws', encodeObject env f v ws = .ok ws' → ∀ u, ws'.log.contains u = true → ws.log.contains u = true ∨ P u := by
  have set_iff : ∀ {a b : ObjLog} {x u : Val} {n : Nat}, b.ids = Dict.set a.ids x n → b.contains u = true →
      u = x ∨ a.contains u = true := by
    intro a b x u n hb hu
    unfold ObjLog.contains at *
    rw [hb, Dict.get_set] at hu
    split at hu
    · left; symm; assumption
    · exact Or.inr hu
  induction f with
  | zero => intro v ws ws' h; simp [encodeObject, encodeWith] at h
  | succ f ih =>
    have walk : ∀ {cs : List Val} {n : Nat} {a b : WS}, Walks (encodeObject env f) cs n a b →
        ∀ u, b.log.contains u = true → a.log.contains u = true ∨ P u := by
      intro cs n a b h
      induction h with
      | done h => intro u hu; left; rw [h.1] at hu; exact hu
      | call h hc _ ih2 =>
        intro u hu
        rcases ih2 u hu with h1 | h1
        · rcases ih _ _ _ hc u h1 with h2 | h2
          · left; rw [h.1] at h2; exact h2
          · exact Or.inr h2
        · exact Or.inr h1
    have node : ∀ {ac : Mode} {x : Val} {cs : List Val} {N : Nat} {a b : WS}, NodeRun (encodeObject env f) ac x cs N a b → P x →
        ∀ u, b.log.contains u = true → a.log.contains u = true ∨ P u := by
      intro ac x cs N a b h hx u hu
      cases h with
      | plain hac hn hl hm hd hm' h =>
        rcases walk h u hu with h1 | h1
        · rcases set_iff (by rw [hl]; rfl) h1 with h2 | h2
          · subst h2; exact Or.inr hx
          · exact Or.inl h2
        · exact Or.inr h1
      | last hac hn h hl hm hd =>
        rcases set_iff (by rw [hl]; rfl) hu with h1 | h1
        · subst h1; exact Or.inr hx
        · exact walk h u h1
      | @acyclic _ _ c w1 w2 hac hc hn hl hm hd h hl' hm' hd' =>
        have hu' : w2.log.contains u = true := by rw [hl'] at hu; exact hu
        rcases ih c w1 w2 h u hu' with h1 | h1
        · rcases set_iff (a := a.log) (x := x) (n := a.log.slots.length) (by rw [hl]; rfl) h1 with h2 | h2
          · subst h2; exact Or.inr hx
          · exact Or.inl h2
        · exact Or.inr h1
    intro v ws ws' h u hu
    rw [encodeObject_succ] at h
    have hl : (deduplicate env v ws).2.log = ws.log := by rw [deduplicate_state]
    unfold refsStep at h
    generalize deduplicate env v ws = p at *
    obtain ⟨d, w1⟩ := p
    simp only at hl h
    rw [← hl]
    split at h
    · unfold writeReference at h
      split at h
      · cases h
      · left
        rw [(reference_bare h).1] at hu
        exact hu
    · have hx := hP _ _ _ _ h
      cases tagWriter_run h with
      | scalar _ _ _ hq => left; rw [hq.1] at hu; exact hu
      | unlogged _ _ _ _ hq => left; rw [hq.1] at hu; exact hu
      | bytes _ hrun => exact node hrun hx u hu
      | logged _ _ _ hrun => exact node hrun hx u hu

/-- C23: without the feature, data that a Float16Array is reachable in is not written at all. -/
theorem C23_float16_refused {env : EEnv} (ht : WellTyped env) (hn : NoTwins env) (hf : env.feats.float16Array = false)
    {v : Val} {i : Id} {b : Val} {w : View} (hr : Reaches env v (.obj i)) (hi : env.heap[i]? = some (.view b w))
    (hw : w.tag = .float16) (bytes : Bytes) : dumps env v ≠ .ok bytes := by
  intro h
  obtain ⟨ws, hws, rfl⟩ := dumps_state h
  rcases (C12_numbers ht hn hws).1 _ hr trivial with h1 | ⟨n, h1⟩
  · simp only [IsUnlogged, hi] at h1
  · rw [dumpsState_eq] at hws
    have hc : ws.log.contains (.obj i) = true := by unfold ObjLog.contains; rw [h1]; rfl
    have hP : ∀ f x ws ws', tagWriter env (encodeObject env f) x unhandledValue ws = .ok ws' → x ≠ .obj i := by
      rintro f x ws ws' h rfl
      simp only [tagWriter, hi, serializeNode] at h
      rw [if_pos ⟨hw, hf⟩] at h
      cases h
    rcases recorded_accepted hP _ _ _ _ hws _ hc with h2 | h2
    · simp [WS.headed, WS.new, ObjLog.empty, ObjLog.contains, Dict.get] at h2
    · exact h2 rfl

example : Reaches (noFeatures [.abuf ⟨[1, 2, 0, 0], 4, false⟩, .view (.obj 0) ⟨.float16, 0, some 1⟩, .jsset [.int 1, .obj 1]])
    (.obj 2) (.obj 1) :=
  .inside (i := 2) (c := .obj 1) (Or.inl rfl) rfl (by simp [members]) (.here (Or.inl rfl))

/-- C23 fails for RegExp: the flag `v` (bit 8) is written without the feature RegExpUnicodeSets. -/
theorem C23_v_flag_written : (noFeatures [.regexp ⟨[97], 256⟩]).feats.regExpUnicodeSets = false ∧
    mkRegExp [97] 256 = .ok ⟨[97], 256⟩ ∧
    dumps (noFeatures [.regexp ⟨[97], 256⟩]) (.obj 0) = .ok [0xff, 0x0f, 0x52, 0x53, 1, 97, 0x80, 2] := by decide +kernel

/-- C23 fails for views of resizable buffers: without the feature the buffer is written as a plain one,
but the view is still marked as being on a resizable buffer (flag 2) and as tracking its length (flag
1). -/
theorem C23_view_flags_written :
    dumps (noFeatures [.abuf ⟨[1, 2], 4, true⟩, .view (.obj 0) ⟨.uint8, 0, none⟩]) (.obj 1) =
      .ok [0xff, 0x0f, 0x42, 2, 1, 2, 0x56, 66, 0, 2, 3] := by decide +kernel

/-! ## C19 (writer) -/

/-- The constants: hole, undefined, null, true, false. -/
def IsConstant : Val → Prop
  | .hole | .undef | .null | .bool _ => True
  | _ => False

/-- Bytes are added that begin with the tag of a number or string. -/
def AddsKey (ws ws' : WS) : Prop := ∃ c bs, c ∈ keyBytes ∧ ws'.data = ws.data ++ c :: bs

theorem refuses {t : Tag} (ht : t ∉ jsObjectKeyTags) {ws : WS} (ha : ws.allowed = some jsObjectKeyTags) {g : WS → Except EErr WS} :
    (writeTag t ws >>= g) = .error .encode := by
  have : writeTag t ws = .error .encode := by
    unfold writeTag
    simp only [ha]
    rw [if_neg (by simpa using ht)]
  rw [this]
  rfl

theorem accepts {t : Tag} {ws ws' : WS} (ha : ws.allowed = some jsObjectKeyTags) {bs : Bytes}
    (h : (writeTag t ws >>= emit bs) = .ok ws') : AddsKey ws ws' := by
  by_cases ht : t ∈ jsObjectKeyTags
  · have e : writeTag t ws = emit [t.byte] ws := by
      unfold writeTag
      simp only [ha]
      rw [if_pos (by simpa using ht)]
    rw [e] at h
    cases h
    refine ⟨t.byte, bs, ?_, by simp⟩
    revert ht
    cases t <;> decide
  · rw [refuses ht ha] at h
    cases h

theorem accepts_tagged {t : Tag} {ws ws' : WS} (ha : ws.allowed = some jsObjectKeyTags) {r : Except EErr Bytes}
    (h : writeTagged t r ws = .ok ws') : AddsKey ws ws' := by
  unfold writeTagged at h
  split at h
  · exact accepts ha h
  · cases h

theorem buffer_not_key {env : EEnv} (ht : WellTyped env) (f : Nat) {b : Val} (hb : IsBuffer env.heap b) {ws ws' : WS}
    (hm : MemoOK env ws.memo) (ha : ws.allowed = some jsObjectKeyTags) (h : encodeObject env f b ws = .ok ws') : False := by
  cases f with
  | zero => simp [encodeObject, encodeWith] at h
  | succ f =>
    rw [encodeObject_succ] at h
    have hal : (deduplicate env b ws).2.allowed = ws.allowed := by rw [deduplicate_state]
    have hkey := deduplicate_key b hm
    unfold refsStep at h
    generalize deduplicate env b ws = p at *
    obtain ⟨d, w1⟩ := p
    simp only at hal hkey h
    rw [ha] at hal
    have hd : IsBuffer env.heap d := by
      rcases hkey with h | ⟨k, h1, h2⟩
      · rw [h]; exact hb
      · exact WellTyped.of_dkey ht h1 h2 hb
    split at h
    · unfold writeReference at h
      split at h
      · cases h
      · obtain ⟨w2, h1, h2⟩ := Except.bind_eq_ok h
        cases h1
        rw [refuses (by decide) (by exact hal)] at h2
        cases h2
    · have fixed : ∀ (data : Bytes) (x : Val), writeFixedBuffer data x w1 = .ok ws' → False := by
        intro data x h
        obtain ⟨w2, h1, h2⟩ := Except.bind_eq_ok h
        cases h1
        rw [refuses (by decide) (by exact hal)] at h2
        cases h2
      have byId : ∀ (t : Tag) (id : Int) (x : Val), t ∉ jsObjectKeyTags → writeBufferId t id x w1 = .ok ws' → False := by
        intro t id x htag h
        unfold writeBufferId at h
        split at h
        · cases h
        · obtain ⟨w2, h1, h2⟩ := Except.bind_eq_ok h
          cases h1
          obtain ⟨w3, h1, h3⟩ := Except.bind_eq_ok h2
          cases h1
          rw [refuses htag (by exact hal)] at h3
          cases h3
      cases d with
      | bytes x => exact fixed _ _ h
      | obj i =>
        simp only [tagWriter] at h
        cases hi : env.heap[i]? with
        | none => rw [hi] at h; cases h
        | some n =>
          rw [hi] at h
          simp only [IsBuffer, hi] at hd
          cases n with
          | abuf y =>
            simp only [serializeNode, writeArrayBuffer] at h
            split at h
            · unfold writeResizableBuffer at h
              split at h
              · cases h
              · obtain ⟨w2, h1, h2⟩ := Except.bind_eq_ok h
                cases h1
                rw [refuses (by decide) (by exact hal)] at h2
                cases h2
            · exact fixed _ _ h
          | rawBuf m y => exact fixed _ _ h
          | sharedBuf id => exact byId _ _ _ (by decide) h
          | transferBuf id => exact byId _ _ _ (by decide) h
          | _ => exact hd.elim
      | _ => exact hd.elim

/-- A writer that writes the tag first, perhaps after recording the object. -/
theorem key_node {env : EEnv} (ht : WellTyped env) (f : Nat) {i : Id} {n : Node} (hi : env.heap[i]? = some n) {ws ws' : WS}
    (hm : MemoOK env ws.memo) (ha : ws.allowed = some jsObjectKeyTags)
    (h : serializeNode env (encodeObject env f) unhandledValue (.obj i) n ws = .ok ws') : AddsKey ws ws' := by
  have rec1 : ∀ {t : Tag} {x : Val} {g : WS → Except EErr WS}, t ∉ jsObjectKeyTags →
      (recordRef x ws >>= fun ws => writeTag t ws >>= g) = .ok ws' → False := by
    intro t x g htag h
    obtain ⟨w2, h1, h2⟩ := Except.bind_eq_ok h
    cases h1
    rw [refuses htag (by exact ha)] at h2
    cases h2
  cases n with
  | jsmap es => exact (rec1 (by decide) h).elim
  | jsset ms => exact (rec1 (by decide) h).elim
  | jsobj o => exact (rec1 (by decide) h).elim
  | jsarr o =>
    simp only [serializeNode, serializeJSArray] at h
    split at h
    · unfold writeSparseArray at h
      split at h
      · cases h
      · exact (rec1 (by decide) h).elim
    · exact (rec1 (by decide) h).elim
  | pylist els => exact (rec1 (by decide) h).elim
  | date d =>
    simp only [serializeNode, writeDate] at h
    split at h
    · cases h
    · exact (rec1 (by decide) h).elim
  | primObj p =>
    obtain ⟨w2, h1, h2⟩ := Except.bind_eq_ok (show (recordRef (.obj i) ws >>= fun ws => writeTag p.tag ws >>=
      emitE (primObjPayload p)) = .ok ws' from h)
    cases h1
    cases hp : primObjPayload p with
    | error e =>
      rw [hp] at h2
      obtain ⟨w3, _, h4⟩ := Except.bind_eq_ok h2
      cases h4
    | ok bs =>
      rw [hp] at h2
      obtain ⟨c, bs', h3, h4⟩ := accepts (by exact ha) h2
      exact ⟨c, bs', h3, h4⟩
  | regexp r =>
    obtain ⟨w2, h1, h2⟩ := Except.bind_eq_ok h
    cases h1
    rw [refuses (by decide) (by exact ha)] at h2
    cases h2
  | error name msg stack cause =>
    exfalso
    simp only [serializeNode, writeError] at h
    by_cases hc : cause = .null
    · simp only [hc, if_true] at h
      obtain ⟨w2, h1, h2⟩ := Except.bind_eq_ok h
      cases h1
      rw [refuses (by decide) (by exact ha)] at h2
      cases h2
    · simp only [if_neg hc] at h
      obtain ⟨w2, h1, h2⟩ := Except.bind_eq_ok h
      cases h1
      rw [refuses (by decide) (by exact ha)] at h2
      cases h2
  | abuf b =>
    simp only [serializeNode, writeArrayBuffer] at h
    split at h
    · unfold writeResizableBuffer at h
      split at h
      · cases h
      · exact (rec1 (by decide) h).elim
    · exact (rec1 (by decide) h).elim
  | rawBuf m b => exact (rec1 (by decide) h).elim
  | sharedBuf id =>
    simp only [serializeNode, writeBufferId] at h
    split at h
    · cases h
    · obtain ⟨w2, h1, h2⟩ := Except.bind_eq_ok h
      cases h1
      obtain ⟨w3, h1, h3⟩ := Except.bind_eq_ok h2
      cases h1
      rw [refuses (by decide) (by exact ha)] at h3
      cases h3
  | transferBuf id =>
    simp only [serializeNode, writeBufferId] at h
    split at h
    · cases h
    · obtain ⟨w2, h1, h2⟩ := Except.bind_eq_ok h
      cases h1
      obtain ⟨w3, h1, h3⟩ := Except.bind_eq_ok h2
      cases h1
      rw [refuses (by decide) (by exact ha)] at h3
      cases h3
  | view b v =>
    exfalso
    simp only [serializeNode] at h
    by_cases hc : v.tag = .float16 ∧ env.feats.float16Array = false
    · rw [if_pos hc] at h; cases h
    · rw [if_neg hc] at h
      obtain ⟨w2, h1, h2⟩ := Except.bind_eq_ok h
      exact buffer_not_key ht f (ht.views i b v hi) hm ha h1
  | sharedRef id => exact (rec1 (by decide) h).elim
  | other => cases h

/-- C19 (partial): whatever is given to the writer as a property key, if it is not one of the constants
then either it is refused, or what is written for it begins with the tag of a number or string.
Missing: the constants, see `C19_writer_accepts_constants`. -/
theorem C19_writer_keys_partial {env : EEnv} (ht : WellTyped env) (f : Nat) {k : Val} (hk : ¬ IsConstant k) {ws ws' : WS}
    (hm : MemoOK env ws.memo) (h : writeKey (encodeObject env f) k ws = .ok ws') : AddsKey ws ws' := by
  unfold writeKey at h
  obtain ⟨w1, h1, h2⟩ := Except.bind_eq_ok h
  cases h2
  show AddsKey ws w1
  suffices AddsKey { ws with allowed := some jsObjectKeyTags } w1 from this
  have ha : ({ ws with allowed := some jsObjectKeyTags } : WS).allowed = some jsObjectKeyTags := rfl
  have hm' : MemoOK env ({ ws with allowed := some jsObjectKeyTags } : WS).memo := hm
  generalize ({ ws with allowed := some jsObjectKeyTags } : WS) = w0 at *
  cases f with
  | zero => simp [encodeObject, encodeWith] at h1
  | succ f =>
    rw [encodeObject_succ] at h1
    have hd : (deduplicate env k w0).2.data = w0.data := by rw [deduplicate_state]
    have hal : (deduplicate env k w0).2.allowed = w0.allowed := by rw [deduplicate_state]
    have hmm := (deduplicate_memo (v := k) hm')
    have hkey := deduplicate_key k hm'
    unfold refsStep at h1
    generalize deduplicate env k w0 = p at *
    obtain ⟨d, w2⟩ := p
    simp only at hd hal hkey hmm h1
    rw [ha] at hal
    have hdc : ¬ IsConstant d := by
      rcases hkey with h | ⟨c, h3, h4⟩
      · rw [h]; exact hk
      · intro hc
        cases d with
        | obj i => exact hc
        | float x => exact hc
        | _ => simp [dkey] at h3
    suffices AddsKey w2 w1 by
      obtain ⟨c, bs, h3, h4⟩ := this
      exact ⟨c, bs, h3, by rw [h4, hd]⟩
    split at h1
    · exfalso
      unfold writeReference at h1
      split at h1
      · cases h1
      · obtain ⟨w3, h3, h4⟩ := Except.bind_eq_ok h1
        cases h3
        rw [refuses (by decide) (by exact hal)] at h4
        cases h4
    · cases d with
      | int n =>
        have h1 : serializeInt n w2 = .ok w1 := h1
        unfold serializeInt at h1
        by_cases c1 : inUint32 n = true
        · rw [if_pos c1] at h1; exact accepts_tagged hal h1
        rw [if_neg c1] at h1
        by_cases c2 : inInt32 n = true
        · rw [if_pos c2] at h1; exact accepts_tagged hal h1
        rw [if_neg c2] at h1
        by_cases c3 : inSafeInt n = true
        · rw [if_pos c3] at h1; exact accepts hal h1
        rw [if_neg c3, if_pos hal] at h1
        exact accepts_tagged hal h1
      | float x => exact accepts hal h1
      | str s => exact accepts_tagged hal h1
      | bytes b =>
        exfalso
        obtain ⟨w3, h3, h4⟩ := Except.bind_eq_ok (show writeFixedBuffer b (.bytes b) w2 = .ok w1 from h1)
        cases h3
        rw [refuses (by decide) (by exact hal)] at h4
        cases h4
      | obj i =>
        simp only [tagWriter] at h1
        cases hi : env.heap[i]? with
        | none => rw [hi] at h1; cases h1
        | some n => rw [hi] at h1; exact key_node ht f hi hmm hal h1
      | _ => exact absurd trivial hdc

/-- C19: containers, RegExps, Errors and `bytes` are refused with EncodeV8SerializeError. -/
theorem C19_writer_raises {env : EEnv} (f : Nat) {k : Val} {ws : WS} (hd : deduplicate env k ws = (k, ws))
    (hc : ws.log.contains k = false)
    (hk : (∃ b, k = .bytes b) ∨ ∃ (i : Id) (n : Node), k = .obj i ∧ env.heap[i]? = some n ∧
      match n with
      | .jsmap _ | .jsset _ | .jsobj _ | .pylist _ | .regexp _ | .error _ _ _ _ | .rawBuf _ _ => True
      | _ => False) :
    writeKey (encodeObject env (f + 1)) k ws = .error .encode := by
  have hd' : deduplicate env k { ws with allowed := some jsObjectKeyTags } = (k, { ws with allowed := some jsObjectKeyTags }) := by
    unfold deduplicate at hd ⊢
    cases hkk : dkey env k with
    | none => rfl
    | some c =>
      rw [hkk] at hd
      simp only at hd ⊢
      cases hg : Dict.get ws.memo c with
      | some w => rw [hg] at hd; simp only at hd ⊢; rw [(Prod.mk.inj hd).1]
      | none =>
        rw [hg] at hd
        have := congrArg WS.memo (Prod.mk.inj hd).2
        simp only at this
        have h2 := Dict.get_set ws.memo c k c
        rw [this, hg] at h2
        simp at h2
  suffices encodeObject env (f + 1) k { ws with allowed := some jsObjectKeyTags } = .error .encode by
    unfold writeKey
    rw [this]
    rfl
  rw [encodeObject_succ]
  unfold refsStep
  rw [hd']
  simp only [hc, Bool.false_eq_true, if_false]
  have ha : ({ ws with allowed := some jsObjectKeyTags } : WS).allowed = some jsObjectKeyTags := rfl
  generalize ({ ws with allowed := some jsObjectKeyTags } : WS) = w0 at *
  have rec1 : ∀ {t : Tag} {x : Val} {g : WS → Except EErr WS}, t ∉ jsObjectKeyTags →
      (recordRef x w0 >>= fun ws => writeTag t ws >>= g) = .error .encode := by
    intro t x g htag
    show (writeTag t _ >>= g) = _
    exact refuses htag (by exact ha)
  rcases hk with ⟨b, rfl⟩ | ⟨i, n, rfl, hi, hn⟩
  · exact rec1 (by decide)
  · simp only [tagWriter, hi]
    cases n with
    | jsmap es => exact rec1 (by decide)
    | jsset ms => exact rec1 (by decide)
    | jsobj o => exact rec1 (by decide)
    | pylist els => exact rec1 (by decide)
    | rawBuf m b => exact rec1 (by decide)
    | regexp r => exact refuses (by decide) (by exact ha)
    | error name msg stack cause =>
      simp only [serializeNode, writeError]
      by_cases hcn : cause = .null
      · simp only [hcn, if_true]; exact refuses (by decide) (by exact ha)
      · simp only [if_neg hcn]; exact refuses (by decide) (by exact ha)
    | _ => exact hn.elim

/-- C19 fails for the constants: as a key each of them is written like any other value. -/
theorem C19_writer_accepts_constants (env : EEnv) (f : Nat) (ws : WS) {k : Val} (hk : IsConstant k) (hc : ws.log.contains k = false) :
    ∃ c ws', c ∉ keyBytes ∧ writeKey (encodeObject env (f + 1)) k ws = .ok ws' ∧ ws'.data = ws.data ++ [c] := by
  have key : ∀ (t : Tag), t ∈ jsConstantTags → t.byte ∉ keyBytes → deduplicate env k { ws with allowed := some jsObjectKeyTags } =
      (k, { ws with allowed := some jsObjectKeyTags }) → (∀ rec next, tagWriter env rec k next = writeConstant t) →
      ∃ c ws', c ∉ keyBytes ∧ writeKey (encodeObject env (f + 1)) k ws = .ok ws' ∧ ws'.data = ws.data ++ [c] := by
    intro t ht hb hd htw
    refine ⟨t.byte, { ws with data := ws.data ++ [t.byte], allowed := none }, hb, ?_, rfl⟩
    unfold writeKey
    rw [encodeObject_succ]
    unfold refsStep
    rw [hd]
    simp only [hc, Bool.false_eq_true, if_false, htw]
    unfold writeConstant writeTag
    simp only
    rw [if_pos (by simpa using ht)]
    rfl
  cases k with
  | hole => exact key .kTheHole (by decide) (by decide) rfl fun _ _ => rfl
  | undef => exact key .kUndefined (by decide) (by decide) rfl fun _ _ => rfl
  | null => exact key .kNull (by decide) (by decide) rfl fun _ _ => rfl
  | bool b =>
    cases b
    · exact key .kFalse (by decide) (by decide) rfl fun _ _ => rfl
    · exact key .kTrue (by decide) (by decide) rfl fun _ _ => rfl
  | _ => exact hk.elim

/-- An object with the keys 7 and `true`; and one with a list as key. -/
example : (writeJSObject (encodeObject (exampleEnc [.pylist []]) 9) [(.int 7, .null), (.bool true, .null)] (.obj 5) WS.new).toOption.map
      (·.data) = some [0x6f, 0x55, 7, 0x30, 0x54, 0x30, 0x7b, 2] ∧
    writeJSObject (encodeObject (exampleEnc [.pylist []]) 9) [(.int 7, .null), (.obj 0, .null)] (.obj 5) WS.new = .error .encode := by
  decide +kernel

end V8.Props
