import Verif.Proofs.DecodePos
import Verif.Spec.Examples

/-!
# C76: the position in a decode error
-/

namespace V8.Props
open V8 V8.Spec

/-- The tags with a reader, decode.py:1207-1238. -/
def readable : List Tag :=
  [.kDouble, .kOneByteString, .kTwoByteString, .kUtf8String, .kBigInt, .kInt32, .kUint32,
   .kTheHole, .kUndefined, .kNull, .kTrue, .kFalse, .kRegExp, .kBeginJSMap, .kBeginJSSet, .kObjectReference,
   .kBeginJSObject, .kBeginDenseJSArray, .kBeginSparseJSArray,
   .kArrayBuffer, .kResizableArrayBuffer, .kSharedArrayBuffer, .kArrayBufferTransfer, .kArrayBufferView,
   .kTrueObject, .kFalseObject, .kNumberObject, .kBigIntObject, .kStringObject, .kError, .kDate, .kSharedObject,
   .kWasmModuleTransfer, .kWasmMemoryTransfer, .kHostObject]

/-- C76: following the positions changes nothing else: the model with positions returns the same objects and raises
the same exceptions as the one of the other properties. -/
theorem C76_same (env : DEnv) (d : Bytes) :
    (∀ v s, Pos.loads env d = .ok (v, s) ↔ loads env d = .ok (v, s)) ∧
    (∀ e, (∃ p, Pos.loads env d = .error (e, p)) ↔ loads env d = .error e) := by
  have h := Pos.loads_erase env d
  cases hp : Pos.loads env d with
  | ok r =>
    rw [hp] at h
    rw [← h]
    exact ⟨fun v s => ⟨fun hr => by cases hr; rfl, fun hr => by cases hr; rfl⟩,
      fun e => ⟨fun ⟨p, hr⟩ => (by cases hr), fun hr => by cases hr⟩⟩
  | error r =>
    obtain ⟨e', p⟩ := r
    rw [hp] at h
    rw [← h]
    exact ⟨fun v s => ⟨fun hr => (by cases hr), fun hr => by cases hr⟩,
      fun e => ⟨fun ⟨p, hr⟩ => (by cases hr; rfl), fun hr => by cases hr; exact ⟨p, rfl⟩⟩⟩

/-- C76: the position of a decode error is in the data, or just after it. -/
theorem C76_in_data (env : DEnv) (d : Bytes) (e : DErr) (p : Nat) (he : e = .decode ∨ e = .unhandledTag)
    (h : Pos.loads env d = .error (e, p)) : p ≤ d.length :=
  Pos.loads_bound env d e p he h

/-- C76: the error for a tag that no reader handles is just after that tag. -/
theorem C76_unhandled_tag (env : DEnv) (d : Bytes) (p : Nat) (h : Pos.loads env d = .error (.unhandledTag, p)) :
    ∃ t : Tag, t ∉ readable ∧ 0 < p ∧ d[p - 1]? = some t.byte := by
  obtain ⟨t, ht, b, h1, h2, h3⟩ := Pos.loads_unhandled env d p h
  refine ⟨t, ?_, h1, ?_⟩
  · unfold Pos.Unread at ht
    rcases ht with rfl | rfl | rfl | rfl | rfl | rfl | rfl | rfl | rfl | rfl | rfl | rfl | rfl | rfl | rfl | rfl | rfl | rfl |
      rfl | rfl | rfl | rfl <;> decide
  · rw [h2, Tag.byte_of_ofByte h3]

/-- C76: the bytes more than 3 before the position are not to blame.  Other data that begins with the same `p` bytes
and is not shorter does not fail earlier than 3 bytes before `p`, if at all. -/
theorem C76_not_earlier_partial (env : DEnv) (d d' : Bytes) (e : DErr) (p : Nat) (he : e = .decode ∨ e = .unhandledTag)
    (h : Pos.loads env d = .error (e, p)) (hlen : d.length ≤ d'.length) (hpre : d'.take p = d.take p) :
    (∀ e' p', Pos.loads env d' = .error (e', p') → p ≤ p' + 3) ∧ (∀ v s, Pos.loads env d' = .ok (v, s) → p ≤ s.pos + 3) := by
  have ha : Pos.Agree d d' p := by
    refine ⟨fun i hi => ?_, hlen⟩
    have := congrArg (fun l => l[i]?) hpre
    simp only [List.getElem?_take, if_pos hi] at this
    exact this.symm
  have hl := Pos.loads_late env d d' e p (by rcases he with rfl | rfl <;> decide) h ha
  exact ⟨hl.2, hl.1⟩

/-- C76: nor is the position before the value that failed.  When reading a value from position `s.pos` fails (in the
middle of other data, after any calls of the decoder), then after some padding there is either no tag, and the error is at
that place, or a tag, and the error is after it. -/
theorem C76_not_before_value (env : DEnv) (f : Nat) (d : Bytes) (s : DS) (hs : s.pos ≤ d.length) (e : DErr) (p : Nat)
    (h : Pos.decodeNext (Pos.decodeTag env f) d s = .error (e, p)) :
    ∃ i, s.pos ≤ i ∧ (∀ j, s.pos ≤ j → j < i → d[j]? = some 0) ∧
      ((p = i ∧ (i = d.length ∨ ∃ b, d[i]? = some b ∧ Tag.ofByte b = none)) ∨ (i < p ∧ ∃ t : Tag, d[i]? = some t.byte)) :=
  Pos.next_err env f d s hs e p h

/-- The value at position 3 of the set, after its padding, is no tag. -/
example : Pos.decodeNext (Pos.decodeTag exampleDec 9) [0xff, 0x0f, 0x27, 0, 0, 0x01] (DS.start 3 15) = .error (.decode, 5) := by
  decide +kernel

/-- A set of 1 and then a byte that is no tag, which is at fault; and a good set that begins in the same way. -/
example : Pos.loads exampleDec [0xff, 0x0f, 0x27, 0x49, 2, 0x01] = .error (.decode, 5) ∧
    (Pos.loads exampleDec [0xff, 0x0f, 0x27, 0x49, 2, 0x2c, 1]).isOk := by
  decide +kernel

/-- C76: the 3 bytes are needed.  A 32 bit number cut off after 4 bytes is reported at its fourth byte; with a fifth
byte that makes it too long it is reported at its first. -/
theorem C76_varint_moves :
    Pos.loads exampleDec [0xff, 0x0f, 0x55, 0x80, 0x80, 0x80, 0x80] = .error (.decode, 6) ∧
    Pos.loads exampleDec [0xff, 0x0f, 0x55, 0x80, 0x80, 0x80, 0x80, 0x80] = .error (.decode, 3) := by
  decide +kernel

/-- C76: data cut off in a varint is reported at the last byte there is, not at the end of the data where the missing
byte should be; data cut off before a tag is reported at its end. -/
theorem C76_truncated_varint :
    Pos.loads exampleDec [0xff, 0x0f, 0x22, 0x81] = .error (.decode, 3) ∧
    Pos.loads exampleDec [0xff, 0x0f] = .error (.decode, 2) := by
  decide +kernel

/-- C76: a byte that is no tag is reported at the byte, a tag that is not handled just after it. -/
theorem C76_tag_positions :
    Pos.loads exampleDec [0xff, 0x0f, 0x01] = .error (.decode, 2) ∧
    Pos.loads exampleDec [0xff, 0x0f, 0x7b] = .error (.unhandledTag, 3) := by
  decide +kernel

/-- C76: text that is not UTF-8 is reported at its first byte, wherever in it the mistake is; and text that does not
fit in the data too. -/
theorem C76_text_positions :
    Pos.loads exampleDec [0xff, 0x0f, 0x53, 3, 0x61, 0x62, 0xff] = .error (.decode, 4) ∧
    Pos.loads exampleDec [0xff, 0x0f, 0x53, 3, 0x61, 0x62] = .error (.decode, 4) := by
  decide +kernel

end V8.Props
