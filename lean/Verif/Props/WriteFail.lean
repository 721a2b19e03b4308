import Verif.Proofs.WriteFail
import Verif.Spec.Examples

/-!
# What a stream holds when a write method raises (C91)
-/

namespace V8.Props

open V8 V8.WriteFail V8.Spec V8.Spec.WriteFail

/-- A concrete environment: integers from 2^1024 on have no float; there are no host objects. -/
def exampleWriting : XEnv :=
  ⟨⟨true, true, true, true⟩, examplePy, fun n => if n < 2 ^ 1024 then .ok (doubleOfInt n) else .error .overflowError,
    fun _ => throwing .unhandledValue⟩

/-- A stream with nothing in it. -/
def exampleStream : WS := ⟨[], .empty, none, [], none, false⟩

/-- A value writer that knows only null, and raises for everything else. -/
def onlyNull : Val → Wx
  | .null => exec exampleWriting (fun _ => skip) (.constant .kNull)
  | _ => throwing .unhandledValue

theorem appends_exec {env : XEnv} (hh : ∀ v, OnlyAppends (env.host v)) {rx : Val → Wx} (h : ∀ v, OnlyAppends (rx v))
    (c : Call) : OnlyAppends (exec env rx c) := by
  have sq := @appends_seq
  cases c with
  | tag t => simp only [exec]; exact appends_tag t
  | varint n => simp only [exec]; exact appends_varint n
  | zigzag n => simp only [exec]; exact appends_varint _
  | constant t => simp only [exec]; exact appends_constrained (appends_tag t)
  | header => simp only [exec]; exact sq (appends_tag _) (appends_varint _)
  | double x => simp only [exec]; exact sq (appends_tag _) (appends_payload _)
  | oneByte s => simp only [exec]; exact appends_tagged _ _
  | twoByte s => simp only [exec]; exact appends_twoByte s
  | utf8 s => simp only [exec]; exact appends_tagged _ _
  | bigint n => simp only [exec]; exact appends_tagged _ _
  | int32 n => simp only [exec]; exact appends_tagged _ _
  | uint32 n => simp only [exec]; exact appends_tagged _ _
  | primObj p i => simp only [exec]; exact sq (appends_record _) (sq (appends_tag _) (appends_payload _))
  | regexp r => simp only [exec]; exact sq appends_skew (sq (appends_tag _) (sq (appends_tagged _ _) (appends_varint _)))
  | error name message stack c i =>
    simp only [exec]
    refine sq ?_ (sq (appends_tag _) (sq (appends_errProto _) (sq (appends_errText _ _) (sq (appends_errText _ _)
      (sq ?_ (appends_varint _))))))
    · split
      · exact appends_skew
      · exact appends_skip
    · split
      · exact appends_skip
      · exact appends_cause h _ _ _
  | date d i =>
    simp only [exec]
    split
    · exact appends_throwing _
    · exact sq (appends_record _) (sq (appends_tag _) (appends_payload _))
  | map l i => simp only [exec]; exact sq (appends_record _) (sq (appends_tag _) (sq (appends_entries h _) (sq (appends_tag _) (appends_varint _))))
  | set l i => simp only [exec]; exact sq (appends_record _) (sq (appends_tag _) (sq (appends_vals h _) (sq (appends_tag _) (appends_varint _))))
  | object l i => simp only [exec]; exact sq (appends_record _) (sq (appends_tag _) (appends_objectProps h _ _))
  | dense els l i =>
    simp only [exec]
    exact sq (appends_record _) (sq (appends_tag _) (sq (appends_varint _) (sq (appends_vals h _)
      (sq (appends_props h _) (sq (appends_tag _) (sq (appends_varint _) (appends_varint _)))))))
  | sparse l n i =>
    simp only [exec]
    split
    · exact appends_throwing _
    · exact sq (appends_record _) (sq (appends_tag _) (sq (appends_varint _) (sq (appends_objectProps h _ _) (appends_varint _))))
  | reference v =>
    intro ws
    simp only [exec]
    split
    · exact later_refl ws
    · exact sq (appends_tag _) (sq (appends_varint _) (appends_note _)) ws
  | referenceId n =>
    intro ws
    simp only [exec]
    split
    · exact later_refl ws
    · exact sq (appends_tag _) (appends_varint _) ws
  | fixedBuffer d i => simp only [exec]; exact sq (appends_record _) (sq (appends_tag _) (sq (appends_payload _) (appends_payload _)))
  | resizableBuffer b i =>
    simp only [exec]
    split
    · exact appends_throwing _
    · exact sq (appends_record _) (sq (appends_tag _) (sq (appends_payload _) (sq (appends_payload _) (appends_payload _))))
  | bufferId t id i =>
    simp only [exec]
    split
    · exact appends_throwing _
    · exact sq appends_skew (sq (appends_record _) (sq (appends_tag _) (appends_varint _)))
  | view v mv r i =>
    simp only [exec]
    split
    · exact appends_throwing _
    · exact sq (appends_record _) (sq (appends_tag _) (sq (appends_varint _) (sq (appends_payload _) (sq (appends_payload _)
        (appends_varint _)))))
  | hostObject v => simp only [exec]; exact sq (appends_tag _) (hh v)
  | sharedRef id i => simp only [exec]; exact sq (appends_record _) (sq (appends_tag _) (appends_payload _))

theorem lifted_exec {env : XEnv} (hh : ∀ v, NoConstraintLeft (env.host v)) {rx : Val → Wx}
    (h : ∀ v, NoConstraintLeft (rx v)) (c : Call) : NoConstraintLeft (exec env rx c) := by
  have sq := @lifted_seq
  cases c with
  | tag t => simp only [exec]; exact lifted_tag t
  | varint n => simp only [exec]; exact lifted_varint n
  | zigzag n => simp only [exec]; exact lifted_varint _
  | constant t => simp only [exec]; exact lifted_constrained _ _
  | header => simp only [exec]; exact sq (lifted_tag _) (lifted_varint _)
  | double x => simp only [exec]; exact sq (lifted_tag _) (lifted_payload _)
  | oneByte s => simp only [exec]; exact lifted_tagged _ _
  | twoByte s => simp only [exec]; exact lifted_twoByte s
  | utf8 s => simp only [exec]; exact lifted_tagged _ _
  | bigint n => simp only [exec]; exact lifted_tagged _ _
  | int32 n => simp only [exec]; exact lifted_tagged _ _
  | uint32 n => simp only [exec]; exact lifted_tagged _ _
  | primObj p i => simp only [exec]; exact sq (lifted_record _) (sq (lifted_tag _) (lifted_payload _))
  | regexp r => simp only [exec]; exact sq lifted_skew (sq (lifted_tag _) (sq (lifted_tagged _ _) (lifted_varint _)))
  | error name message stack c i =>
    simp only [exec]
    refine sq ?_ (sq (lifted_tag _) (sq (lifted_errProto _) (sq (lifted_errText _ _) (sq (lifted_errText _ _)
      (sq ?_ (lifted_varint _))))))
    · split
      · exact lifted_skew
      · exact lifted_skip
    · split
      · exact lifted_skip
      · exact lifted_cause h _ _ _
  | date d i =>
    simp only [exec]
    split
    · exact lifted_throwing _
    · exact sq (lifted_record _) (sq (lifted_tag _) (lifted_payload _))
  | map l i => simp only [exec]; exact sq (lifted_record _) (sq (lifted_tag _) (sq (lifted_entries h _) (sq (lifted_tag _) (lifted_varint _))))
  | set l i => simp only [exec]; exact sq (lifted_record _) (sq (lifted_tag _) (sq (lifted_vals h _) (sq (lifted_tag _) (lifted_varint _))))
  | object l i => simp only [exec]; exact sq (lifted_record _) (sq (lifted_tag _) (lifted_objectProps h _ _))
  | dense els l i =>
    simp only [exec]
    exact sq (lifted_record _) (sq (lifted_tag _) (sq (lifted_varint _) (sq (lifted_vals h _)
      (sq (lifted_props h _) (sq (lifted_tag _) (sq (lifted_varint _) (lifted_varint _)))))))
  | sparse l n i =>
    simp only [exec]
    split
    · exact lifted_throwing _
    · exact sq (lifted_record _) (sq (lifted_tag _) (sq (lifted_varint _) (sq (lifted_objectProps h _ _) (lifted_varint _))))
  | reference v =>
    intro ws hw
    simp only [exec]
    split
    · exact hw
    · exact sq (lifted_tag _) (sq (lifted_varint _) (lifted_note _)) ws hw
  | referenceId n =>
    intro ws hw
    simp only [exec]
    split
    · exact hw
    · exact sq (lifted_tag _) (lifted_varint _) ws hw
  | fixedBuffer d i => simp only [exec]; exact sq (lifted_record _) (sq (lifted_tag _) (sq (lifted_payload _) (lifted_payload _)))
  | resizableBuffer b i =>
    simp only [exec]
    split
    · exact lifted_throwing _
    · exact sq (lifted_record _) (sq (lifted_tag _) (sq (lifted_payload _) (sq (lifted_payload _) (lifted_payload _))))
  | bufferId t id i =>
    simp only [exec]
    split
    · exact lifted_throwing _
    · exact sq lifted_skew (sq (lifted_record _) (sq (lifted_tag _) (lifted_varint _)))
  | view v mv r i =>
    simp only [exec]
    split
    · exact lifted_throwing _
    · exact sq (lifted_record _) (sq (lifted_tag _) (sq (lifted_varint _) (sq (lifted_payload _) (sq (lifted_payload _)
        (lifted_varint _)))))
  | hostObject v => simp only [exec]; exact sq (lifted_tag _) (hh v)
  | sharedRef id i => simp only [exec]; exact sq (lifted_record _) (sq (lifted_tag _) (lifted_payload _))

theorem appends_run {env : XEnv} (hh : ∀ v, OnlyAppends (env.host v)) {rx : Val → Wx} (h : ∀ v, OnlyAppends (rx v)) :
    ∀ p : Prog, OnlyAppends (p.run env rx)
  | .done => appends_skip
  | .fail e => appends_throwing e
  | .call c next => fun ws => later_trans (appends_exec hh h c ws) (appends_run hh h (next _ _) _)
  | .value v next => fun ws => later_trans (h v ws) (appends_run hh h (next _ _) _)

theorem lifted_run {env : XEnv} (hh : ∀ v, NoConstraintLeft (env.host v)) {rx : Val → Wx}
    (h : ∀ v, NoConstraintLeft (rx v)) : ∀ p : Prog, NoConstraintLeft (p.run env rx)
  | .done => lifted_skip
  | .fail e => lifted_throwing e
  | .call c next => fun ws hw => lifted_run hh h (next _ _) _ (lifted_exec hh h c ws hw)
  | .value v next => fun ws hw => lifted_run hh h (next _ _) _ (h v ws hw)

/-- **C91**  Whatever steps write a value, and whatever exceptions they raise or catch, the stream afterwards is the stream
before with something added: no byte is changed or removed, and each number of the log refers to the same object. -/
theorem C91_appends (env : XEnv) (hh : ∀ v, OnlyAppends (env.host v)) (steps : Val → Prog) (depth : Nat) (v : Val) :
    OnlyAppends (encodeBy env steps depth v) := by
  induction depth generalizing v with
  | zero => exact appends_throwing _
  | succ n ih => exact appends_run hh (fun v => ih v) (steps v)

/-- **C91**  And no constraint on the tags is left behind, although keys are written under one. -/
theorem C91_constraint_lifted (env : XEnv) (hh : ∀ v, NoConstraintLeft (env.host v)) (steps : Val → Prog) (depth : Nat)
    (v : Val) : NoConstraintLeft (encodeBy env steps depth v) := by
  induction depth generalizing v with
  | zero => exact lifted_throwing _
  | succ n ih => exact lifted_run hh (fun v => ih v) (steps v)

/-- An object whose key is a float, which no property key may be: the step catches the exception and writes null. -/
def exampleSteps : Val → Prog
  | .obj i => .call (.object [(.float 0, .null)] (.obj i)) fun r _ =>
      if r = none then .done else .call (.constant .kNull) fun _ _ => .done
  | .float x => .call (.map [] (.float x)) fun r _ => match r with | some e => .fail e | none => .done
  | _ => .fail .unhandledValue

example : encodeBy exampleWriting exampleSteps 2 (.obj 7) exampleStream =
    ({ exampleStream with data := [0x6F, 0x30], log := ⟨[(.obj 7, 0), (.float 0, 1)], [.obj (.obj 7), .obj (.float 0)]⟩ }, none) := by
  decide +kernel

example : ∀ v, OnlyAppends (exampleWriting.host v) := fun _ => appends_throwing _
example : ∀ v, NoConstraintLeft (exampleWriting.host v) := fun _ => lifted_throwing _

/-- **C91** (`_partial`: it does not hold of doubles and objects, see the theorems below.)  If one of the methods for values
without parts raises, then nothing has changed. -/
theorem C91_atomic_partial (env : XEnv) (rec : Val → Wx) (c : Call) (hc : Simple c) (ws : WS) (e : EErr)
    (h : (exec env rec c ws).2 = some e) : (exec env rec c ws).1 = ws := by
  cases c <;> first | exact absurd hc id | skip
  case tag t => exact whole_step _ ws e h
  case varint n => exact whole_step _ ws e h
  case zigzag n => exact whole_step _ ws e h
  case header => exact whole_seq (whole_step _) (varint_fine kLatestVersion) ws e h
  case oneByte s => exact whole_tagged _ _ ws e h
  case utf8 s => exact whole_tagged _ _ ws e h
  case bigint n => exact whole_tagged _ _ ws e h
  case int32 n => exact whole_tagged _ _ ws e h
  case uint32 n => exact whole_tagged _ _ ws e h
  case twoByte s =>
    simp only [exec, twoByte] at h ⊢
    split at h
    · rfl
    · split at h
      · rename_i ws' x ht
        have := whole_step (writeTag .kTwoByteString) ws x (by show (tag .kTwoByteString ws).2 = _; rw [ht])
        change (tag .kTwoByteString ws).1 = ws at this
        rw [ht] at this
        exact this
      · cases h
  case reference v =>
    simp only [exec] at h ⊢
    split at h
    · rfl
    · rename_i n hq
      refine whole_seq (whole_step _) (fun ws => ?_) ws e h
      have := varint_fine n ws
      unfold seq
      rcases hv : varint n ws with ⟨ws', _ | x⟩
      · rfl
      · rw [hv] at this; cases this

example : Simple (.int32 (2 ^ 31)) ∧ (exec exampleWriting onlyNull (.int32 (2 ^ 31)) exampleStream).2 ≠ none := by
  constructor
  · trivial
  · decide +kernel

/-- **C91**  A refused constant changes nothing but the constraint: the one that was there is gone. -/
theorem C91_constant (env : XEnv) (rec : Val → Wx) (t : Tag) (ws : WS) (e : EErr)
    (h : (exec env rec (.constant t) ws).2 = some e) :
    (exec env rec (.constant t) ws).1 = { ws with allowed := none } := by
  have := whole_step (writeTag t) { ws with allowed := some jsConstantTags } e h
  show { (tag t { ws with allowed := some jsConstantTags }).1 with allowed := none } = _
  change (tag t _).1 = _ at this
  rw [this]

example : (exec exampleWriting onlyNull (.constant .kDouble) exampleStream).2 = some .encode := by decide +kernel

/-- **C91**  A call that a method refuses by a check of its arguments raises and changes nothing. -/
theorem C91_refused (env : XEnv) (rec : Val → Wx) (c : Call) (hc : Refused env c) (ws : WS) :
    ∃ e, exec env rec c ws = (ws, some e) := by
  cases hc with
  | length h => exact ⟨.py .valueError, by simp only [exec]; rw [if_pos (by omega)]; rfl⟩
  | max h => exact ⟨.py .valueError, by simp only [exec]; rw [if_pos h]; rfl⟩
  | id h => exact ⟨.py .valueError, by simp only [exec]; rw [if_pos h]; rfl⟩
  | feature h1 h2 => exact ⟨.featureRequired, by simp only [exec]; rw [if_pos ⟨h1, h2⟩]; rfl⟩
  | timestamp h => exact ⟨_, by simp only [exec]; rw [h]; rfl⟩

example : Refused exampleWriting (.bufferId .kSharedArrayBuffer (-1) (.obj 0)) := .id (by decide)
example : Refused exampleWriting (.sparse [] (2 ^ 32) (.obj 0)) := .length (.inr (by decide))

/-- **C91**, what is missing: `write_double` writes its tag before it converts the number, so an integer that is too large
for a float leaves the tag of a double without its value. -/
theorem C91_double (env : XEnv) (rec : Val → Wx) (n : Int) (x : PyExc) (hx : env.float n = .error x) (ws : WS)
    (ha : ws.allowed = none) :
    exec env rec (.double (.int n)) ws = ({ ws with data := ws.data ++ [Tag.kDouble.byte] }, some (.py x)) := by
  simp only [exec, seq, tag, step, payload, writeTag, ha, emit, emitE, packDouble, hx]

example : exampleWriting.float (2 ^ 1024) = .error .overflowError := by decide +kernel

/-- **C91**, what is missing: `write_js_primitive_object` records the object and writes the tag before it encodes the text, so
a string with a lone surrogate leaves both. -/
theorem C91_string_object (env : XEnv) (rec : Val → Wx) (s : Str) (identity : Val) (x : EErr)
    (hx : writeStringUtf8 s = .error x) (ws : WS) (ha : ws.allowed = none) :
    exec env rec (.primObj (.str s) identity) ws =
      ({ ws with data := ws.data ++ [Tag.kStringObject.byte], log := (ws.log.record identity).1 }, some x) := by
  simp only [exec, seq, tag, step, payload, writeTag, ha, emit, emitE, recordRef, primObjPayload, hx]
  rfl

/-- **C91**, what is missing: `write_js_regexp` leaves its tag if the source has a lone surrogate. -/
theorem C91_regexp (env : XEnv) (rec : Val → Wx) (r : RegExp) (x : EErr) (hx : writeStringUtf8 r.source = .error x)
    (ws : WS) (ha : ws.allowed = none) :
    (exec env rec (.regexp r) ws).1.data = ws.data ++ [Tag.kRegExp.byte] ∧ (exec env rec (.regexp r) ws).2 = some x := by
  simp only [exec, seq, tag, step, tagged, throwing, writeTag, ha, emit, markSkew, hx]
  exact ⟨trivial, trivial⟩

example : writeStringUtf8 [0xD800] = .error (.py .valueError) := by decide +kernel

/-- **C91**, what is missing: a negative id of an object counts from the end of the log, like any index of a list, so
`write_object_reference` takes it for the id of an object and writes the tag; `write_varint` then refuses it. -/
theorem C91_negative_reference (env : XEnv) (rec : Val → Wx) (n : Int) (ws : WS) (h0 : n < 0)
    (hn : -(ws.log.slots.length : Int) ≤ n) (ha : ws.allowed = none) :
    exec env rec (.referenceId n) ws =
      ({ ws with data := ws.data ++ [Tag.kObjectReference.byte] }, some (.py .valueError)) := by
  have hg : ∃ s, ws.log.getObject n = .ok s := by
    have hi : pyIndex ws.log.slots.length n = some (n + ws.log.slots.length).toNat := by
      unfold pyIndex
      simp only [h0, if_true]
      split <;> first | rfl | (simp; omega) | omega
    have hl : (n + ws.log.slots.length).toNat < ws.log.slots.length := by omega
    refine ⟨ws.log.slots[(n + ws.log.slots.length).toNat], ?_⟩
    simp only [ObjLog.getObject, hi, List.getElem?_eq_getElem hl]
  obtain ⟨s, hs⟩ := hg
  simp only [exec, hs, seq, tag, step, varint, payload, writeTag, ha, emit, emitE, writeVarintInt, if_pos h0]

/-- **C91**, what is missing: a map of which a key or value cannot be written stays in the log, with its begin tag and the
entries before.  A later reference to it is written without complaint, and refers to something that has no end. -/
theorem C91_left_behind :
    ∃ ws, exec exampleWriting onlyNull (.map [(.null, .null), (.null, .bool true)] (.obj 3)) exampleStream =
        (ws, some .unhandledValue) ∧
      ws.data = [Tag.kBeginJSMap.byte, Tag.kNull.byte, Tag.kNull.byte, Tag.kNull.byte] ∧
      ∃ ws', exec exampleWriting onlyNull (.reference (.obj 3)) ws = (ws', none) ∧
        ws'.data = ws.data ++ [Tag.kObjectReference.byte, 0] := by
  refine ⟨_, rfl, ?_, _, rfl, ?_⟩ <;> decide +kernel

/-- **C91**  The containers and buffers are numbered before anything else happens: also when writing their contents raises,
the next number of the log is theirs. -/
theorem C91_numbered (env : XEnv) (rec : Val → Wx) (hr : ∀ v, OnlyAppends (rec v)) (identity : Val) (ws : WS) (c : Call)
    (hc : (∃ l, c = .map l identity) ∨ (∃ l, c = .set l identity) ∨ (∃ l, c = .object l identity) ∨
      (∃ els l, c = .dense els l identity) ∨ (∃ data, c = .fixedBuffer data identity) ∨
      (∃ p, c = .primObj p identity) ∨ (∃ id, c = .sharedRef id identity)) :
    (exec env rec c ws).1.log.slots[ws.log.slots.length]? = some (.obj identity) := by
  have key : ∀ m : Wx, OnlyAppends m →
      (seq (step (recordRef identity)) m ws).1.log.slots[ws.log.slots.length]? = some (.obj identity) := by
    intro m hm
    refine (hm { ws with log := (ws.log.record identity).1 }).log _ _ ?_
    simp [ObjLog.record]
  have sq := @appends_seq
  rcases hc with ⟨l, rfl⟩ | ⟨l, rfl⟩ | ⟨l, rfl⟩ | ⟨els, l, rfl⟩ | ⟨d, rfl⟩ | ⟨p, rfl⟩ | ⟨id, rfl⟩
  · simp only [exec]; exact key _ (sq (appends_tag _) (sq (appends_entries hr _) (sq (appends_tag _) (appends_varint _))))
  · simp only [exec]; exact key _ (sq (appends_tag _) (sq (appends_vals hr _) (sq (appends_tag _) (appends_varint _))))
  · simp only [exec]; exact key _ (sq (appends_tag _) (appends_objectProps hr _ _))
  · simp only [exec]; exact key _ (sq (appends_tag _) (sq (appends_varint _) (sq (appends_vals hr _)
      (sq (appends_props hr _) (sq (appends_tag _) (sq (appends_varint _) (appends_varint _)))))))
  · simp only [exec]; exact key _ (sq (appends_tag _) (sq (appends_payload _) (appends_payload _)))
  · simp only [exec]; exact key _ (sq (appends_tag _) (appends_payload _))
  · simp only [exec]; exact key _ (sq (appends_tag _) (appends_payload _))

example : ∀ v, OnlyAppends (onlyNull v) := by
  intro v
  unfold onlyNull
  split
  · exact appends_constrained (appends_tag _)
  · exact appends_throwing _

/-- **C91**  The model here and the one in `Model/Encode` agree: the same exception, or the same stream. -/
theorem C91_agrees (env : XEnv) (rx : Val → Wx) (rec : Val → Wr) (h : ∀ v, Agree (rx v) (rec v)) (c : Call) (w : Wr)
    (hw : plain env rec c = some w) : Agree (exec env rx c) w := by
  have sq := @agree_seq
  cases c <;> first | (cases hw; done) | skip
  case tag t => cases hw; exact agree_step _
  case constant t => cases hw; exact agree_constrained (agree_step _)
  case double x =>
    cases x with
    | int n => cases hw
    | float x => cases hw; unfold writeDoubleTagged; simp only [exec, packDouble]; exact sq (agree_step _) (agree_payload (.ok (writeDouble x)))
  case oneByte s => cases hw; simp only [exec]; exact agree_tagged _ _
  case utf8 s => cases hw; simp only [exec]; exact agree_tagged _ _
  case bigint s => cases hw; simp only [exec]; exact agree_tagged _ _
  case int32 s => cases hw; simp only [exec]; exact agree_tagged _ _
  case uint32 s => cases hw; simp only [exec]; exact agree_tagged _ _
  case primObj p i =>
    cases hw
    unfold writePrimObj
    simp only [exec]
    exact sq (agree_step _) (sq (agree_step _) (agree_payload _))
  case regexp r =>
    cases hw
    unfold writeRegExp
    simp only [exec]
    exact sq (agree_step _) (sq (agree_step _) (sq (agree_tagged _ _) (agree_varint _)))
  case error name message stack c i =>
    cases hw
    unfold writeError
    simp only [exec]
    by_cases hc : c = Val.null
    · simp only [if_pos hc]
      exact sq (agree_step _) (sq (agree_step _) (sq (agree_errProto _) (sq (agree_errText _ _) (sq (agree_errText _ _)
        (sq agree_skip (agree_varint _))))))
    · simp only [if_neg hc]
      exact sq agree_skip (sq (agree_step _) (sq (agree_errProto _) (sq (agree_errText _ _) (sq (agree_errText _ _)
        (sq (agree_cause h _ _ _) (agree_varint _))))))
  case date d i =>
    cases hw
    unfold writeDate
    simp only [exec]
    cases env.py.dateMs d with
    | error e => exact fun _ => rfl
    | ok ms => exact sq (agree_step _) (sq (agree_step _) (agree_payload (.ok _)))
  case map l i =>
    cases hw
    unfold writeJSMap
    simp only [exec]
    exact sq (agree_step _) (sq (agree_step _) (sq (agree_entries h _) (sq (agree_step _) (agree_varint _))))
  case set l i =>
    cases hw
    unfold writeJSSet
    simp only [exec]
    exact sq (agree_step _) (sq (agree_step _) (sq (agree_vals h _) (sq (agree_step _) (agree_varint _))))
  case object l i =>
    cases hw
    unfold writeJSObject
    simp only [exec]
    exact sq (agree_step _) (sq (agree_step _) (agree_objectProps h _ _))
  case dense els l i =>
    cases hw
    unfold writeDenseArray
    simp only [exec]
    exact sq (agree_step _) (sq (agree_step _) (sq (agree_varint _) (sq (agree_vals h _) (sq (agree_props h _)
      (sq (agree_step _) (sq (agree_varint _) (agree_varint _)))))))
  case sparse l n i =>
    cases hw
    unfold writeSparseArray
    simp only [exec]
    split
    · exact fun _ => rfl
    · rename_i hn
      have hv : Agree (varint n) (emit (writeVarint n.toNat)) := by
        have := agree_varint n.toNat
        rwa [show ((n.toNat : Nat) : Int) = n by omega] at this
      exact sq (agree_step _) (sq (agree_step _) (sq hv (sq (agree_objectProps h _ _) hv)))
  case reference v =>
    cases hw
    intro ws
    unfold writeReference
    simp only [exec]
    cases hg : ws.log.getId v with
    | error e => rfl
    | ok n =>
      have := sq (agree_step (writeTag .kObjectReference)) (sq (agree_varint n) (agree_step (noteRef n))) ws
      refine Eq.trans ?_ this
      show (noteRef n ws >>= _) = _
      cases ha : ws.allowed with
      | none => simp only [bind, Except.bind, noteRef, writeTag, ha, emit]
      | some c =>
        by_cases hc : c.contains .kObjectReference
        · simp only [bind, Except.bind, noteRef, writeTag, ha, if_pos hc, emit]
        · simp only [bind, Except.bind, noteRef, writeTag, ha, if_neg hc]
  case fixedBuffer d i =>
    cases hw
    unfold writeFixedBuffer
    simp only [exec]
    exact sq (agree_step _) (sq (agree_step _) (sq (agree_payload _) (agree_payload (.ok _))))
  case resizableBuffer b i =>
    cases hw
    unfold writeResizableBuffer
    simp only [exec]
    split
    · exact fun _ => rfl
    · exact sq (agree_step _) (sq (agree_step _) (sq (agree_payload _) (sq (agree_payload _) (agree_payload (.ok _)))))
  case bufferId t id i =>
    cases hw
    unfold writeBufferId
    simp only [exec]
    split
    · exact fun _ => rfl
    · rename_i hn
      have hv : Agree (varint id) (emit (writeVarint id.toNat)) := by
        have := agree_varint id.toNat
        rwa [show ((id.toNat : Nat) : Int) = id by omega] at this
      exact sq (agree_step _) (sq (agree_step _) (sq (agree_step _) hv))
  case view v mv r i =>
    cases hw
    unfold writeView
    simp only [exec]
    split
    · exact fun _ => rfl
    · exact sq (agree_step _) (sq (agree_step _) (sq (agree_varint _) (sq (agree_payload _) (sq (agree_payload _)
        (agree_varint _)))))
  case sharedRef id i =>
    cases hw
    unfold writeSharedRef
    simp only [exec]
    exact sq (agree_step _) (sq (agree_step _) (agree_payload _))

end V8.Props
