import Verif.Proofs.InPlace
import Verif.Spec.Examples

/-!
# Containers are filled in place (C81)
-/

namespace V8.Props

open V8.Spec

/-- C81: the decoder that fills each container in place, entry by entry, gives the same value, the same objects,
the same object log and the same exceptions as the one that puts containers into the heap when they are complete.
So what is decoded inside a container does not depend on how much of the container is there. -/
theorem C81_in_place (env : DEnv) (d : Bytes) : InPlace.loads env d = loads env d := by
  unfold InPlace.loads loads
  cases readHeader d 0 with
  | error e => rfl
  | ok r =>
    exact (InPlace.Alike.decodeNext (InPlace.decodeTag_alike env (d.length - r.2 + 1) [])).run_same d (DS.start r.2 r.1)

/-- C81, from any state: a nested value is decoded alike. -/
theorem C81_nested (env : DEnv) (f : Nat) (t : Tag) (d : Bytes) (s : DS) :
    InPlace.decodeTag env f t d s = decodeTag env f t d s :=
  (InPlace.decodeTag_alike env f [] t).run_same d s

/-- C81: decoding a value changes no object that exists before, be it complete or still being filled: each
container is filled by its own reader only. -/
theorem C81_others_untouched (env : DEnv) (f : Nat) (t : Tag) (d : Bytes) (s s' : DS) (v : Val)
    (h : InPlace.decodeTag env f t d s = .ok (v, s')) (i : Id) (hi : i < s.heap.length) :
    s'.heap[i]? = s.heap[i]? :=
  (InPlace.decodeTag_alike env f [] t).run_frame d s h i hi

/-- An array that holds itself and a Map with the array as key: the reference is decoded while the array is empty,
and the Map while it has one element. -/
example : result (InPlace.loads exampleDec [0xff, 0x0f, 0x41, 2, 0x5e, 0, 0x3b, 0x5e, 0, 0x49, 2, 0x3a, 2, 0x24, 0, 2])
    = some (.obj 0, [.jsarr ⟨.dense ⟨[some (.obj 0), some (.obj 1)], 2⟩, []⟩, .jsmap [(.obj 0, .int 1)]], 16) := by
  decide +kernel

/-- The Map of the example, read when the array has its first element: the array stays as it is. -/
example : result (InPlace.decodeTag exampleDec 5 .kBeginJSMap [0x5e, 0, 0x49, 2, 0x3a, 2]
      ⟨0, ⟨[(.obj 0, 0)], [.obj (.obj 0)]⟩, [.jsarr ⟨.dense ⟨[some (.obj 0)], 1⟩, []⟩], 15, 0⟩)
    = some (.obj 1, [.jsarr ⟨.dense ⟨[some (.obj 0)], 1⟩, []⟩, .jsmap [(.obj 0, .int 1)]], 6) := by
  decide +kernel

/-- A Set, an object and a sparse array inside each other, with references to all of them. -/
example : result (InPlace.loads exampleDec
      [0xff, 0x0f, 0x27, 0x6f, 0x22, 1, 0x61, 0x61, 3, 0x55, 1, 0x5e, 0, 0x55, 2, 0x5e, 1, 0x40, 2, 3, 0x7b, 1, 0x5e, 2, 0x2c, 2])
    = some (.obj 0, [.jsset [.obj 1, .obj 2], .jsobj ⟨.dense ⟨[], 0⟩, [([97], .obj 2)]⟩,
        .jsarr ⟨.dense ⟨[none, some (.obj 0), some (.obj 1)], 2⟩, []⟩], 26) := by
  decide +kernel

/-- Repeated keys, wrong counts and cut data are treated alike. -/
example : result (InPlace.loads exampleDec [0xff, 0x0f, 0x3b, 0x49, 2, 0x54, 0x49, 2, 0x46, 0x3a, 4])
      = some (.obj 0, [.jsmap [(.int 1, .bool false)]], 11) ∧
    InPlace.loads exampleDec [0xff, 0x0f, 0x3b, 0x30, 0x54, 0x3a, 7] = .error .decode ∧
    InPlace.loads exampleDec [0xff, 0x0f, 0x41, 3, 0x54] = .error .decode := by decide +kernel

end V8.Props
