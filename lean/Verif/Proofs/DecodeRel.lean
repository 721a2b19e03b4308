import Verif.Model.Decode
import Verif.Proofs.Tags

/-!
# Relations between two decoder runs

A relation between decoding computations that is closed under the ways computations are built holds
between any two runs of the decoder, the right one with at least as much fuel.
-/

namespace V8

/-- The readers that do not depend on the object state. -/
inductive Leaf : {α : Type} → Rd α → Prop
  | anyTag : Leaf readAnyTag
  | thisTag (t : Tag) : Leaf (readThisTag t)
  | tagIn (c : TagConstraint) : Leaf (readTagIn c)
  | varint : Leaf (readVarint none)
  | uint32 : Leaf readUint32
  | int32 : Leaf readInt32
  | bigint : Leaf readBigint
  | double : Leaf readDouble
  | oneByte : Leaf readStringOneByte
  | twoByte : Leaf readStringTwoByte
  | utf8 : Leaf readStringUtf8
  | primObj (t : Tag) : Leaf (readPrimObj t)
  | errTag : Leaf readErrTag
  | afterName (e : ErrTag) : Leaf (readAfterName e)
  | fixed : Leaf readFixedContents
  | resizable : Leaf readResizableContents
  | node : Leaf readNodeContents
  | peak : Leaf peakIsView

/-- Two heaps that differ only in what the decoder does not look at. -/
def LooksAlike (h h' : Heap) : Prop := ∀ v,
  backingBytes h v = backingBytes h' v ∧ backingResizable h v = backingResizable h' v ∧ isBuffer h v = isBuffer h' v

theorem LooksAlike.refl (h : Heap) : LooksAlike h h := fun _ => ⟨rfl, rfl, rfl⟩

/-- Closure of a relation under the ways decoding computations are built. -/
structure RelClosed (R : {α : Type} → RM α → RM α → Prop) : Prop where
  pure : ∀ {α : Type} (a : α), R (Pure.pure a) (Pure.pure a)
  bind : ∀ {α β : Type} {x y : RM α} {f g : α → RM β},
    R x y → (∀ a, R (f a) (g a)) → R (x >>= f) (y >>= g)
  fail : ∀ {α : Type} (e : DErr), R (RM.fail e : RM α) (RM.fail e)
  fuelLeft : ∀ {α : Type} (y : RM α), R (RM.fail .fuel) y
  leaf : ∀ {α : Type} {r : Rd α}, Leaf r → R (RM.lift r) (RM.lift r)
  alloc : ∀ n, R (alloc n) (alloc n)
  tick : R tick tick
  setNode : ∀ i n, R (setNode i n) (setNode i n)
  recordD : ∀ v, R (recordD v) (recordD v)
  replaceD : ∀ n v, R (replaceD n v) (replaceD n v)
  lookupD : ∀ n, R (lookupD n) (lookupD n)
  getVersion : R getVersion getVersion
  heap : ∀ {β : Type} {k k' : Heap → RM β}, (∀ h h', LooksAlike h h' → R (k h) (k' h')) →
    R (getHeap >>= k) (getHeap >>= k')
  loop : ∀ {β : Type} {k k' : Nat → RM β}, (∀ n m, n ≤ m → R (k n) (k' m)) →
    R (loopFuel >>= k) (loopFuel >>= k')

namespace RelClosed
variable {R : {α : Type} → RM α → RM α → Prop} (H : RelClosed R)
include H

theorem orRaise {α : Type} (x : Except PyExc α) : R (orRaise x) (orRaise x) := by
  cases x with
  | ok a => exact H.pure a
  | error e => exact H.fail _

theorem checkCount (n m : Nat) : R (checkCount n m) (checkCount n m) := by
  unfold V8.checkCount
  split
  · exact H.fail _
  · exact H.pure _

theorem decodeNext {rec rec' : Tag → RM Val} (hr : ∀ t, R (rec t) (rec' t)) :
    R (decodeNext rec) (decodeNext rec') :=
  H.bind (H.leaf .anyTag) hr

theorem decodePrimObj (t : Tag) : R (decodePrimObj t) (decodePrimObj t) :=
  H.bind (H.leaf (.primObj t)) fun _ => H.bind (H.alloc _) fun _ => H.bind (H.recordD _) fun _ =>
    H.bind (H.replaceD _ _) fun _ => H.pure _

theorem assertStr (v : Val) : R (assertStr v) (assertStr v) := by
  cases v <;> first | exact H.pure _ | exact H.fail _

theorem decodeRegExp {rec rec' : Tag → RM Val} (hr : ∀ t, R (rec t) (rec' t)) :
    R (decodeRegExp rec) (decodeRegExp rec') :=
  H.bind (H.leaf (.tagIn _)) fun _ => H.bind (hr _) fun _ => H.bind (H.assertStr _) fun _ =>
    H.bind (H.leaf .varint) fun _ => H.bind (H.orRaise _) fun _ => H.bind (H.alloc _) fun _ =>
      H.bind (H.recordD _) fun _ => H.pure _

theorem readErrText {rec rec' : Tag → RM Val} (hr : ∀ t, R (rec t) (rec' t)) (want etag : ErrTag) :
    R (readErrText rec want etag) (readErrText rec' want etag) := by
  unfold V8.readErrText
  split
  · exact H.bind (H.leaf (.tagIn _)) fun _ => H.bind (hr _) fun _ => H.bind (H.leaf .errTag) fun _ =>
      H.bind (H.assertStr _) fun _ => H.pure _
  · exact H.pure _

theorem readErrCause {rec rec' : Tag → RM Val} (hr : ∀ t, R (rec t) (rec' t)) (etag : ErrTag) :
    R (readErrCause rec etag) (readErrCause rec' etag) := by
  unfold V8.readErrCause
  split
  · exact H.bind (H.decodeNext hr) fun _ => H.bind (H.leaf .errTag) fun _ => H.pure _
  · exact H.pure _

theorem readLateStack {rec rec' : Tag → RM Val} (hr : ∀ t, R (rec t) (rec' t)) (st : Option Str)
    (etag : ErrTag) : R (readLateStack rec st etag) (readLateStack rec' st etag) := by
  unfold V8.readLateStack
  split
  · exact H.readErrText hr _ _
  · exact H.pure _

theorem checkErrEnd (etag : ErrTag) : R (checkErrEnd etag) (checkErrEnd etag) := by
  unfold V8.checkErrEnd
  split
  · exact H.fail _
  · exact H.pure _

theorem decodeError {rec rec' : Tag → RM Val} (hr : ∀ t, R (rec t) (rec' t)) :
    R (decodeError rec) (decodeError rec') :=
  H.bind (H.leaf .errTag) fun _ => H.bind (H.leaf (.afterName _)) fun _ =>
    H.bind (H.readErrText hr _ _) fun _ => H.bind (H.readErrText hr _ _) fun _ =>
      H.bind (H.alloc _) fun _ => H.bind (H.recordD _) fun _ => H.bind (H.readErrCause hr _) fun _ =>
        H.bind (H.readLateStack hr _ _) fun _ => H.bind (H.checkErrEnd _) fun _ =>
          H.bind (H.setNode _ _) fun _ => H.pure _

theorem decodeDate (env : DEnv) : R (decodeDate env) (decodeDate env) :=
  H.bind (H.leaf .double) fun _ => H.bind (H.orRaise _) fun _ => H.bind (H.alloc _) fun _ =>
    H.bind (H.recordD _) fun _ => H.pure _

theorem putEntry (m : JSMap Val) (k v : Val) : R (putEntry m k v) (putEntry m k v) := by
  unfold V8.putEntry
  split
  · exact H.pure _
  · exact H.fail _

theorem putMember (s : JSSet) (v : Val) : R (putMember s v) (putMember s v) := by
  unfold V8.putMember
  split
  · exact H.pure _
  · exact H.fail _

theorem putProp (py : PyEnv) (o : JSObj Val) (key : RawKey) (v : Val) :
    R (putProp py o key v) (putProp py o key v) := by
  unfold V8.putProp
  split
  · exact H.fail _
  · split
    · exact H.pure _
    · exact H.fail _

theorem mapLoop {rec rec' : Tag → RM Val} (hr : ∀ t, R (rec t) (rec' t)) (f f' : Nat) (hf : f ≤ f')
    (m : JSMap Val) (c : Nat) : R (mapLoop rec f m c) (mapLoop rec' f' m c) := by
  induction f generalizing f' m c with
  | zero => exact H.fuelLeft _
  | succ f ih =>
    obtain ⟨g, rfl⟩ : ∃ g, f' = g + 1 := ⟨f' - 1, by omega⟩
    refine H.bind (H.leaf .anyTag) fun t => ?_
    split
    · exact H.pure _
    · exact H.bind (hr _) fun _ => H.bind (H.decodeNext hr) fun _ => H.bind (H.putEntry _ _ _) fun _ =>
        ih _ (by omega) _ _

theorem setLoop {rec rec' : Tag → RM Val} (hr : ∀ t, R (rec t) (rec' t)) (f f' : Nat) (hf : f ≤ f')
    (m : JSSet) (c : Nat) : R (setLoop rec f m c) (setLoop rec' f' m c) := by
  induction f generalizing f' m c with
  | zero => exact H.fuelLeft _
  | succ f ih =>
    obtain ⟨g, rfl⟩ : ∃ g, f' = g + 1 := ⟨f' - 1, by omega⟩
    refine H.bind (H.leaf .anyTag) fun t => ?_
    split
    · exact H.pure _
    · exact H.bind (hr _) fun _ => H.bind (H.putMember _ _) fun _ => ih _ (by omega) _ _

theorem decodeJSMap {rec rec' : Tag → RM Val} (hr : ∀ t, R (rec t) (rec' t)) :
    R (decodeJSMap rec) (decodeJSMap rec') :=
  H.bind (H.alloc _) fun _ => H.bind (H.recordD _) fun _ => H.loop fun n m h =>
    H.bind (H.mapLoop hr n m h _ _) fun _ => H.bind (H.leaf .varint) fun _ =>
      H.bind (H.checkCount _ _) fun _ => H.bind (H.setNode _ _) fun _ => H.pure _

theorem decodeJSSet {rec rec' : Tag → RM Val} (hr : ∀ t, R (rec t) (rec' t)) :
    R (decodeJSSet rec) (decodeJSSet rec') :=
  H.bind (H.alloc _) fun _ => H.bind (H.recordD _) fun _ => H.loop fun n m h =>
    H.bind (H.setLoop hr n m h _ _) fun _ => H.bind (H.leaf .varint) fun _ =>
      H.bind (H.checkCount _ _) fun _ => H.bind (H.setNode _ _) fun _ => H.pure _

theorem checkKey (v : Val) : R (checkKey v) (checkKey v) := by
  cases v <;> first | exact H.pure _ | exact H.fail _

theorem propsLoop (env : DEnv) {rec rec' : Tag → RM Val} (hr : ∀ t, R (rec t) (rec' t)) (e : Tag)
    (f f' : Nat) (hf : f ≤ f') (o : JSObj Val) (c : Nat) :
    R (propsLoop env rec e f o c) (propsLoop env rec' e f' o c) := by
  induction f generalizing f' o c with
  | zero => exact H.fuelLeft _
  | succ f ih =>
    obtain ⟨g, rfl⟩ : ∃ g, f' = g + 1 := ⟨f' - 1, by omega⟩
    refine H.bind (H.leaf .anyTag) fun t => ?_
    split
    · exact H.bind (hr _) fun _ => H.bind (H.checkKey _) fun _ => H.bind (H.decodeNext hr) fun _ =>
        H.bind (H.putProp _ _ _ _) fun _ => ih _ (by omega) _ _
    · split
      · exact H.pure _
      · exact H.fail _

theorem readProps (env : DEnv) {rec rec' : Tag → RM Val} (hr : ∀ t, R (rec t) (rec' t)) (e : Tag)
    (o : JSObj Val) : R (readProps env rec e o) (readProps env rec' e o) :=
  H.loop fun n m h => H.bind (H.propsLoop env hr e n m h _ _) fun _ => H.bind (H.leaf .varint) fun _ =>
    H.bind (H.checkCount _ _) fun _ => H.pure _

theorem decodeJSObject (env : DEnv) {rec rec' : Tag → RM Val} (hr : ∀ t, R (rec t) (rec' t)) :
    R (decodeJSObject env rec) (decodeJSObject env rec') :=
  H.bind (H.alloc _) fun _ => H.bind (H.recordD _) fun _ => H.bind (H.readProps env hr _ _) fun _ =>
    H.bind (H.setNode _ _) fun _ => H.pure _

theorem elemsLoop (env : DEnv) {rec rec' : Tag → RM Val} (hr : ∀ t, R (rec t) (rec' t)) (n i : Nat)
    (o : JSObj Val) : R (elemsLoop env rec n i o) (elemsLoop env rec' n i o) := by
  induction n generalizing i o with
  | zero => exact H.pure _
  | succ n ih =>
    exact H.bind (H.decodeNext hr) fun _ => H.bind (H.putProp _ _ _ _) fun _ => ih _ _

theorem decodeDenseArray (env : DEnv) {rec rec' : Tag → RM Val} (hr : ∀ t, R (rec t) (rec' t)) :
    R (decodeDenseArray env rec) (decodeDenseArray env rec') :=
  H.bind (H.alloc _) fun _ => H.bind (H.recordD _) fun _ => H.bind (H.leaf .varint) fun _ =>
    H.bind (H.elemsLoop env hr _ _ _) fun _ => H.bind (H.readProps env hr _ _) fun _ =>
      H.bind (H.leaf .varint) fun _ => H.bind (H.checkCount _ _) fun _ =>
        H.bind (H.setNode _ _) fun _ => H.pure _

theorem resizeTo (env : DEnv) (n : Nat) (o : JSObj Val) : R (resizeTo env n o) (resizeTo env n o) := by
  unfold V8.resizeTo
  split
  · exact H.putProp _ _ _ _
  · exact H.pure _

theorem decodeSparseArray (env : DEnv) {rec rec' : Tag → RM Val} (hr : ∀ t, R (rec t) (rec' t)) :
    R (decodeSparseArray env rec) (decodeSparseArray env rec') :=
  H.bind (H.alloc _) fun _ => H.bind (H.recordD _) fun _ => H.bind (H.leaf .varint) fun _ =>
    H.bind (H.resizeTo env _ _) fun _ => H.bind (H.readProps env hr _ _) fun _ =>
      H.bind (H.leaf .varint) fun _ => H.bind (H.checkCount _ _) fun _ =>
        H.bind (H.setNode _ _) fun _ => H.pure _

theorem readFixedBuffer : R readFixedBuffer readFixedBuffer :=
  H.bind (H.leaf .fixed) fun _ => H.bind (H.orRaise _) fun _ => H.bind (H.alloc _) fun _ =>
    H.bind (H.recordD _) fun _ => H.pure _

theorem readResizableBuffer : R readResizableBuffer readResizableBuffer :=
  H.bind (H.leaf .resizable) fun _ => H.bind (H.orRaise _) fun _ => H.bind (H.alloc _) fun _ =>
    H.bind (H.recordD _) fun _ => H.pure _

theorem readSharedBuffer : R readSharedBuffer readSharedBuffer :=
  H.bind (H.leaf .uint32) fun _ => H.bind (H.alloc _) fun _ => H.pure _

theorem readTransferBuffer : R readTransferBuffer readTransferBuffer :=
  H.bind (H.leaf .uint32) fun _ => H.bind (H.alloc _) fun _ => H.pure _

theorem readArrayBuffer (t : Tag) : R (readArrayBuffer t) (readArrayBuffer t) := by
  unfold V8.readArrayBuffer
  split
  · exact H.readFixedBuffer
  · exact H.readResizableBuffer
  · exact H.readSharedBuffer
  · exact H.readTransferBuffer
  · exact H.fail _

theorem viewTagOf (n : Nat) : R (viewTagOf n) (viewTagOf n) := by
  unfold V8.viewTagOf
  split
  · exact H.pure _
  · exact H.fail _

theorem readViewFlags (n : Nat) : R (readViewFlags n) (readViewFlags n) := by
  unfold V8.readViewFlags
  split
  · exact H.bind (H.leaf .varint) fun _ => H.orRaise _
  · exact H.pure _

theorem readView (b : Val) : R (readView b) (readView b) :=
  H.bind (H.leaf (.thisTag _)) fun _ => H.bind (H.leaf .varint) fun _ => H.bind (H.viewTagOf _) fun _ =>
    H.bind (H.leaf .uint32) fun _ => H.bind (H.leaf .uint32) fun _ => H.bind H.getVersion fun _ =>
      H.bind (H.readViewFlags _) fun _ => H.heap fun h h' hh => by
        rw [(hh b).1, (hh b).2.1]
        exact H.bind (H.orRaise _) fun _ => H.bind (H.alloc _) fun _ => H.bind (H.recordD _) fun _ => H.pure _

theorem viewAfter (b : Val) : R (viewAfter b) (viewAfter b) := by
  refine H.bind (H.leaf .peak) fun b => ?_
  split
  · exact H.readView _
  · exact H.pure _

theorem decodeArrayBuffer (t : Tag) : R (decodeArrayBuffer t) (decodeArrayBuffer t) :=
  H.bind (H.readArrayBuffer t) fun _ => H.viewAfter _

theorem decodeReference : R decodeReference decodeReference := by
  refine H.bind (H.leaf .varint) fun _ => H.bind (H.lookupD _) fun v => H.heap fun h h' hh => ?_
  rw [(hh v).2.2]
  split
  · exact H.viewAfter _
  · exact H.pure _

theorem decodeSharedRef : R decodeSharedRef decodeSharedRef :=
  H.bind (H.leaf .uint32) fun _ => H.bind (H.alloc _) fun _ => H.bind (H.recordD _) fun _ => H.pure _

theorem decodeNodeHostObject : R decodeNodeHostObject decodeNodeHostObject :=
  H.bind (H.leaf .node) fun _ => H.bind (H.orRaise _) fun _ => H.bind (H.alloc _) fun _ =>
    H.bind (H.orRaise _) fun _ => H.bind (H.alloc _) fun _ => H.pure _

theorem decodeHostObject (env : DEnv) : R (decodeHostObject env) (decodeHostObject env) := by
  unfold V8.decodeHostObject
  split
  · exact H.decodeNodeHostObject
  · exact H.fail _

theorem tagReader (env : DEnv) {rec rec' : Tag → RM Val} (hr : ∀ t, R (rec t) (rec' t)) (t : Tag)
    {next next' : Tag → RM Val} (hn : ∀ t, R (next t) (next' t)) :
    R (tagReader env rec t next) (tagReader env rec' t next') := by
  cases t <;> first
    | exact hn _
    | exact H.pure _
    | exact H.fail _
    | exact H.bind (H.leaf .double) fun _ => H.pure _
    | exact H.bind (H.leaf .oneByte) fun _ => H.pure _
    | exact H.bind (H.leaf .twoByte) fun _ => H.pure _
    | exact H.bind (H.leaf .utf8) fun _ => H.pure _
    | exact H.bind (H.leaf .bigint) fun _ => H.pure _
    | exact H.bind (H.leaf .int32) fun _ => H.pure _
    | exact H.bind (H.leaf .uint32) fun _ => H.pure _
    | exact H.decodeRegExp hr
    | exact H.decodeJSMap hr
    | exact H.decodeJSSet hr
    | exact H.decodeReference
    | exact H.decodeJSObject env hr
    | exact H.decodeDenseArray env hr
    | exact H.decodeSparseArray env hr
    | exact H.decodeArrayBuffer _
    | exact H.decodePrimObj _
    | exact H.decodeError hr
    | exact H.decodeDate env
    | exact H.decodeSharedRef
    | exact H.decodeHostObject env

end RelClosed

theorem decodeTag_zero (env : DEnv) (t : Tag) : decodeTag env 0 t = RM.fail .fuel := rfl

theorem decodeTag_succ (env : DEnv) (f : Nat) (t : Tag) :
    decodeTag env (f + 1) t = (tick >>= fun _ => tagReader env (decodeTag env f) t unhandledTag) := by
  unfold decodeTag
  rw [decodeWith, chainFrom, dif_pos (by simp [defaultDecodeSteps])]
  have : (fun b => chainFrom unhandledTag
      (List.map (fun s => s (decodeWith (defaultDecodeSteps env) f)) (defaultDecodeSteps env)) (0 + 1) b)
      = unhandledTag := by
    funext b
    rw [chainFrom, dif_neg (by simp [defaultDecodeSteps])]
  rw [this]
  rfl

theorem RelClosed.decodeTag {R : {α : Type} → RM α → RM α → Prop} (H : RelClosed R) (env : DEnv)
    (f f' : Nat) (hf : f ≤ f') (t : Tag) : R (decodeTag env f t) (decodeTag env f' t) := by
  induction f generalizing f' t with
  | zero => exact H.fuelLeft _
  | succ f ih =>
    obtain ⟨g, rfl⟩ : ∃ g, f' = g + 1 := ⟨f' - 1, by omega⟩
    rw [decodeTag_succ, decodeTag_succ]
    exact H.bind H.tick fun _ => H.tagReader env (fun t => ih g (by omega) t) t (fun _ => H.fail _)

end V8
