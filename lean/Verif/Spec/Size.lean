import Verif.Spec.Graph

/-!
# Specification: the size of a graph of objects

Counts the scalars, the bytes of buffers and the mentions of objects inside objects, each with a fixed
number of bytes (per character, per binary digit, per buffer byte).  `r` is the number of bytes allowed
for a mention of an object.
-/

namespace V8.Spec

/-- Bytes allowed for a scalar inside another object. -/
def scalarSize : Val → Nat
  | .int n => 16 + 2 * bitLength n.natAbs
  | .float _ => 9
  | .str s => 2 + 8 * s.length
  | _ => 1

/-- Bytes allowed for the keys of an object. -/
def keysSize (l : List (PKey × Val)) : Nat := (l.map (fun e => scalarSize e.1.toVal)).sum

/-- Bytes allowed for an object apart from its members. -/
def frameSize : Node → Nat
  | .jsmap es => 3 + 2 * es.length
  | .jsset ms => 3 + ms.length
  | .jsobj o => 3 + o.items.length + keysSize o.items
  | .jsarr o => 20 + 16 * o.items.length + keysSize o.items
  | .pylist els => 5 + 2 * els.length
  | .date _ => 9
  | .primObj (.str s) => 2 + 8 * s.length
  | .primObj (.bigint n) => 9 + bitLength n.natAbs
  | .primObj _ => 9
  | .regexp r => 5 + 8 * r.source.length
  | .error _ msg stack _ => 10 + 8 * (msg.getD []).length + 8 * (stack.getD []).length
  | .abuf b => 11 + b.exposed.length
  | .rawBuf _ b => 6 + b.length
  | .sharedBuf id => 2 + bitLength id.natAbs
  | .transferBuf id => 2 + bitLength id.natAbs
  | .view _ _ => 14
  | .sharedRef _ => 6
  | .other => 0

/-- Bytes allowed for a value where it is mentioned.  The objects that are written in full each time
(RegExp, Error without cause; they have no members) count in full. -/
def mentionSize (h : Heap) (r : Nat) : Val → Nat
  | .obj i =>
    match h[i]? with
    | some (.regexp x) => frameSize (.regexp x)
    | some (.error name msg stack .null) => frameSize (.error name msg stack .null)
    | _ => r
  | .bytes _ => r
  | v => scalarSize v

/-- Bytes allowed for an object itself: its frame, and a mention of each member. -/
def objectSize (h : Heap) (r : Nat) : Val → Nat
  | .obj i =>
    match h[i]? with
    | some n => frameSize n + ((members n).map (mentionSize h r)).sum
    | none => 0
  | .bytes b => 6 + b.length
  | _ => 0

end V8.Spec
