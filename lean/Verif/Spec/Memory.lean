import Verif.Model.Memory

/-!
# Specification: objects that share the memory of a buffer
-/

namespace V8.Spec

/-- Memoryviews and JSArrayBuffers, by number. -/
structure Handles where
  views : List Nat
  bufs : List Nat

/-- The call makes an object that shares the memory of one of the given ones. -/
def derives (h : Handles) : MemEvent → Bool
  | .slice j _ _ => h.views.contains j
  | .cast j _ => h.views.contains j
  | .toReadonly j => h.views.contains j
  | .newBuf (.view j) o => h.views.contains j && !o.copyData
  | .bufData b => h.bufs.contains b
  | .access b _ _ _ => h.bufs.contains b
  | _ => false

/-- The call writes through one of the given objects, or resizes one. -/
def writes (h : Handles) : MemEvent → Bool
  | .setItem j _ _ => h.views.contains j
  | .resize b _ => h.bufs.contains b
  | _ => false

/-- The call is one of, or is given, the bytes, bytearray or array with number `i`. -/
def names (i : Nat) : MemEvent → Bool
  | .extend i' _ => i' == i
  | .truncate i' _ => i' == i
  | .setByte i' _ _ => i' == i
  | .view i' => i' == i
  | .newBuf (.block i') _ => i' == i
  | _ => false

/-- The given objects, and the ones that the call makes of them. -/
def Handles.after (h : Handles) (m : Mem) (e : MemEvent) : Handles :=
  if derives h e then
    ⟨h.views ++ List.range' m.views.length ((m.step e).views.length - m.views.length),
     h.bufs ++ List.range' m.bufs.length ((m.step e).bufs.length - m.bufs.length)⟩
  else h

/-- In a sequence of calls, nothing is written through the given objects or objects made of them, none of them is resized,
and object `i` is not used itself. -/
def Untouched (i : Nat) : Mem → Handles → List MemEvent → Prop
  | _, _, [] => True
  | m, h, e :: es => writes h e = false ∧ names i e = false ∧ Untouched i (m.step e) (h.after m e) es

end V8.Spec
