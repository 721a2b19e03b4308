import Verif.Proofs.DecodeFailBounds
import Verif.Props.Decode

/-!
# What `loads` has made when it raises (C48, C15)
-/

namespace V8.Props

open V8.Spec

/-- C48: the decoder that tells what exists when it raises gives the same results and the same
exceptions as the decoder. -/
theorem C48_same (env : DEnv) (d : Bytes) : (Fail.loads env d).mapError (·.err) = loads env d :=
  Fail.loads_forget env d

/-- C48, for data that is rejected: when the exception is raised, the objects made, the items stored in
them, the items in the containers still being filled and the entries of the object log together are at
most ten times the number of bytes of the data. -/
theorem C48_rejected (env : DEnv) (d : Bytes) (e : Fail.Stop) (h : Fail.loads env d = .error e) :
    e.state.heap.length + (e.state.heap.map itemsIn).sum + (e.unfinished.map itemsIn).sum
      + e.state.log.slots.length ≤ 10 * d.length := by
  have := Fail.loads_stop env d e h
  rw [itemsIn_eq]
  unfold DS.cost Fail.Stop.open at this
  omega

/-- C48, for every byte string: whatever `loads` does, what it has made when it is done is at most ten
times the number of bytes of the data. -/
theorem C48_no_amplification (env : DEnv) (d : Bytes) :
    (∃ v s, loads env d = .ok (v, s) ∧
      s.heap.length + (s.heap.map itemsIn).sum + s.log.slots.length ≤ 10 * d.length) ∨
    (∃ e : Fail.Stop, loads env d = .error e.err ∧ Fail.loads env d = .error e ∧
      e.state.heap.length + (e.state.heap.map itemsIn).sum + (e.unfinished.map itemsIn).sum
        + e.state.log.slots.length ≤ 10 * d.length) := by
  have hs := C48_same env d
  cases h : Fail.loads env d with
  | ok r =>
    obtain ⟨v, s⟩ := r
    rw [h] at hs
    exact .inl ⟨v, s, hs.symm, C48_accepted env d v s hs.symm⟩
  | error e =>
    rw [h] at hs
    exact .inr ⟨e, hs.symm, rfl, C48_rejected env d e h⟩

/-- C15: a run that raises has made at most ten calls of `decode_object` per byte. -/
theorem C15_rejected_calls (env : DEnv) (d : Bytes) (e : Fail.Stop) (h : Fail.loads env d = .error e) :
    e.state.calls ≤ 10 * d.length := by
  have := Fail.loads_stop env d e h
  unfold DS.cost at this
  omega

/-- The exception, objects made, unfinished containers, and number of calls. -/
def stopped (r : Except Fail.Stop (Val × DS)) : Option (DErr × Heap × List Node × Nat) :=
  match r with
  | .error e => some (e.err, e.state.heap, e.unfinished, e.state.calls)
  | .ok _ => none

/-- A Map with an entry, whose second value is a Set with two members, whose third is an object with one
property, where the data ends. -/
example : stopped (Fail.loads exampleDec
      [0xff, 0x0f, 0x3b, 0x55, 1, 0x30, 0x55, 2, 0x27, 0x54, 0x46, 0x6f, 0x55, 1, 0x30, 0x22, 1, 0x61])
    = some (.decode, [.jsmap [], .jsset [], .jsobj JSObj.empty],
        [.jsmap [(.int 1, .null)], .jsset [.bool true, .bool false],
         .jsobj ⟨.dense ⟨[none, some .null], 1⟩, []⟩], 11) := by decide +kernel

/-- Arrays: two of three elements; a property of an array that claims three slots; a sparse array that
claims 2^32-1. -/
example : stopped (Fail.loads exampleDec [0xff, 0x0f, 0x41, 3, 0x54, 0x46])
      = some (.decode, [.jsarr JSObj.empty], [.jsarr ⟨.dense ⟨[some (.bool true), some (.bool false)], 2⟩, []⟩], 3) ∧
    stopped (Fail.loads exampleDec [0xff, 0x0f, 0x61, 3, 0x55, 1, 0x30])
      = some (.decode, [.jsarr JSObj.empty], [.jsarr ⟨.dense ⟨[none, some .null, none], 1⟩, []⟩], 3) ∧
    (stopped (Fail.loads exampleDec [0xff, 0x0f, 0x61, 0xff, 0xff, 0xff, 0xff, 0x0f])).map
      (fun r => r.2.2.1.map itemsIn) = some [0] := by decide +kernel

/-- Wrong counts at the end of a Map, a Set, an object and an array. -/
example :
    (stopped (Fail.loads exampleDec [0xff, 0x0f, 0x3b, 0x30, 0x54, 0x3a, 7])).map (fun r => r.2.2.1)
      = some [.jsmap [(.null, .bool true)]] ∧
    (stopped (Fail.loads exampleDec [0xff, 0x0f, 0x27, 0x30, 0x2c, 7])).map (fun r => r.2.2.1)
      = some [.jsset [.null]] ∧
    (stopped (Fail.loads exampleDec [0xff, 0x0f, 0x6f, 0x55, 0, 0x30, 0x7b, 7])).map (fun r => r.2.2.1)
      = some [.jsobj ⟨.dense ⟨[some .null], 1⟩, []⟩] ∧
    (stopped (Fail.loads exampleDec [0xff, 0x0f, 0x41, 1, 0x30, 0x24, 0, 2])).map (fun r => r.2.2.1)
      = some [.jsarr ⟨.dense ⟨[some .null], 1⟩, []⟩] := by decide +kernel

end V8.Props
