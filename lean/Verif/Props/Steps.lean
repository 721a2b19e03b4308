import Verif.Props.Config
import Verif.Spec.Examples

/-!
# C40: the steps of the encoder and of the decoder, at every depth

`Offered` (in `Props/Config.lean`) says what it means to offer a value to steps in order.
-/

namespace V8.Props
open V8 V8.Spec

/-- C40: `encode_object` offers a value to the steps in order, and what a step calls for a nested value is
`encode_object` with all the steps, so it is offered to the first step again. -/
theorem C40_encode (steps : List EncStep) (depth : Nat) (v : Val) (r : Wr)
    (h : Offered unhandledValue (steps.map (fun s => s (encodeWith steps depth))) v r) :
    encodeWith steps (depth + 1) v = r :=
  C40_steps_in_order _ _ _ _ h

/-- C40: the same for the tags that are read. -/
theorem C40_decode (steps : List DecStep) (depth : Nat) (t : Tag) (r : RM Val) (d : Bytes) (s : DS)
    (h : Offered unhandledTag (steps.map (fun s => s (decodeWith steps depth))) t r) :
    decodeWith steps (depth + 1) t d s = r d { s with calls := s.calls + 1 } := by
  rw [← C40_steps_in_order _ _ _ _ h]
  rfl

/-- C40: a value that every step hands on as it is, is reported as unhandled. -/
theorem C40_unhandled_value (steps : List EncStep) (depth : Nat) (v : Val) (ws : WS)
    (h : ∀ s ∈ steps, ∀ next, s (encodeWith steps depth) v next = next v) :
    encodeWith steps (depth + 1) v ws = .error .unhandledValue := by
  have key : ∀ l : List EncStep, (∀ s ∈ l, ∀ next, s (encodeWith steps depth) v next = next v) →
      Offered unhandledValue (l.map (fun s => s (encodeWith steps depth))) v (unhandledValue v) := by
    intro l
    induction l with
    | nil => exact fun _ => .nobody v
    | cons s l ih =>
      intro hl
      exact .handedOn (f := id) (hl s List.mem_cons_self) (ih fun s hs => hl s (List.mem_cons_of_mem _ hs))
  rw [C40_encode steps depth v _ (key steps h)]
  rfl

/-- C40: a tag that every step hands on as it is, is reported as unhandled. -/
theorem C40_unhandled_tag (steps : List DecStep) (depth : Nat) (t : Tag) (d : Bytes) (ds : DS)
    (h : ∀ s ∈ steps, ∀ next, s (decodeWith steps depth) t next = next t) :
    decodeWith steps (depth + 1) t d ds = .error .unhandledTag := by
  have key : ∀ l : List DecStep, (∀ s ∈ l, ∀ next, s (decodeWith steps depth) t next = next t) →
      Offered unhandledTag (l.map (fun s => s (decodeWith steps depth))) t (unhandledTag t) := by
    intro l
    induction l with
    | nil => exact fun _ => .nobody t
    | cons s l ih =>
      intro hl
      exact .handedOn (f := id) (hl s List.mem_cons_self) (ih fun s hs => hl s (List.mem_cons_of_mem _ hs))
  rw [C40_decode steps depth t _ d ds (key steps h)]
  rfl

/-- A step that writes every `undefined` as `null`, before the default ones: it is offered the values inside a list
too.  (The bytes are those of `[1, null]`.) -/
example : (dumpsWith ((fun _ v next => next (if v = .undef then .null else v)) ::
      defaultEncodeSteps (exampleEnc [.pylist [.int 1, .undef]])) 5 (.obj 0)).toOption.map (·.data)
    = some [0xff, 0x0f, 0x41, 2, 0x55, 1, 0x30, 0x24, 0, 2] := by decide +kernel

/-- A step that leaves everything to the next one, and no further step. -/
example (v : Val) (ws : WS) : encodeWith [fun _ v next => next v] 1 v ws = .error .unhandledValue :=
  C40_unhandled_value _ 0 v ws fun _ hs _ => by rw [List.mem_singleton.mp hs]

end V8.Props
