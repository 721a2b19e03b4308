import Verif.Model.DecodeFail
import Verif.Proofs.DecodeBounds

/-!
# The decoder with what it has made when it raises: same results

Without what the exceptions carry, the functions of `Model/DecodeFail` are those of `Model/Decode`.
-/

namespace V8.Fail

/-- Forget what an exception carries. -/
def forget {α : Type} (x : RM α) : V8.RM α := fun d s => (x d s).mapError (·.err)

variable {α β : Type}

theorem forget_bind (x : RM α) (f : α → RM β) :
    forget (x >>= f) = (forget x >>= fun a => forget (f a)) := by
  funext d s
  show (RM.bind x f d s).mapError _ = V8.RM.bind (forget x) _ d s
  unfold RM.bind V8.RM.bind forget
  cases x d s <;> rfl

theorem forget_pure (a : α) : forget (Pure.pure a : RM α) = Pure.pure a := rfl

theorem forget_pure' (a : α) : forget (RM.pure a : RM α) = V8.RM.pure a := rfl

theorem forget_fail (e : DErr) : forget (fail e : RM α) = V8.RM.fail e := rfl

theorem forget_step (x : V8.RM α) : forget (step x) = x := by
  funext d s
  unfold forget step
  cases x d s <;> rfl

theorem forget_holding (n : Node) (x : RM α) : forget (holding n x) = forget x := by
  funext d s
  unfold forget holding
  cases x d s <;> rfl

theorem forget_ite (c : Prop) [Decidable c] (x y : RM α) :
    forget (if c then x else y) = if c then forget x else forget y := by
  split <;> rfl

variable (rec : Tag → RM Val)

theorem forget_decodeNext : forget (decodeNext rec) = V8.decodeNext (fun t => forget (rec t)) := by
  simp only [decodeNext, forget_bind, forget_step]; rfl

theorem forget_decodePrimObj (t : Tag) : forget (decodePrimObj t) = V8.decodePrimObj t := by
  simp only [decodePrimObj, forget_bind, forget_step, forget_pure]; rfl

theorem forget_decodeRegExp : forget (decodeRegExp rec) = V8.decodeRegExp (fun t => forget (rec t)) := by
  simp only [decodeRegExp, forget_bind, forget_step, forget_pure]; rfl

theorem forget_readErrText (want etag : ErrTag) :
    forget (readErrText rec want etag) = V8.readErrText (fun t => forget (rec t)) want etag := by
  simp only [readErrText, forget_bind, forget_step, forget_pure, forget_ite]; rfl

theorem forget_readErrCause (etag : ErrTag) :
    forget (readErrCause rec etag) = V8.readErrCause (fun t => forget (rec t)) etag := by
  simp only [readErrCause, forget_bind, forget_step, forget_pure, forget_ite, forget_decodeNext]; rfl

theorem forget_readLateStack (stack : Option Str) (etag : ErrTag) :
    forget (readLateStack rec stack etag) = V8.readLateStack (fun t => forget (rec t)) stack etag := by
  simp only [readLateStack, forget_pure, forget_ite, forget_readErrText]; rfl

theorem forget_decodeError : forget (decodeError rec) = V8.decodeError (fun t => forget (rec t)) := by
  simp only [decodeError, forget_bind, forget_step, forget_pure, forget_readErrText, forget_readErrCause,
    forget_readLateStack]; rfl

theorem forget_decodeDate (env : DEnv) : forget (decodeDate env) = V8.decodeDate env := by
  simp only [decodeDate, forget_bind, forget_step, forget_pure]; rfl

theorem forget_mapLoop (f : Nat) (m : JSMap Val) (c : Nat) :
    forget (mapLoop rec f m c) = V8.mapLoop (fun t => forget (rec t)) f m c := by
  induction f generalizing m c with
  | zero => simp only [mapLoop, forget_holding, forget_fail]; rfl
  | succ f ih =>
    simp only [mapLoop, V8.mapLoop, forget_bind, forget_step, forget_pure, forget_ite, forget_holding,
      forget_decodeNext, ih]

theorem forget_decodeJSMap : forget (decodeJSMap rec) = V8.decodeJSMap (fun t => forget (rec t)) := by
  simp only [decodeJSMap, forget_bind, forget_step, forget_pure, forget_holding, forget_mapLoop]; rfl

theorem forget_setLoop (f : Nat) (m : JSSet) (c : Nat) :
    forget (setLoop rec f m c) = V8.setLoop (fun t => forget (rec t)) f m c := by
  induction f generalizing m c with
  | zero => simp only [setLoop, forget_holding, forget_fail]; rfl
  | succ f ih =>
    simp only [setLoop, V8.setLoop, forget_bind, forget_step, forget_pure, forget_ite, forget_holding, ih]

theorem forget_decodeJSSet : forget (decodeJSSet rec) = V8.decodeJSSet (fun t => forget (rec t)) := by
  simp only [decodeJSSet, forget_bind, forget_step, forget_pure, forget_holding, forget_setLoop]; rfl

theorem forget_putProp (mk : JSObj Val → Node) (py : PyEnv) (o : JSObj Val) (key : RawKey) (v : Val) :
    forget (putProp mk py o key v) = V8.putProp py o key v := by
  unfold putProp V8.putProp
  cases normaliseKey py.floatStr key with
  | error e => simp only [forget_holding, forget_fail]
  | ok k =>
    simp only
    cases o.setitem k v.toElem with
    | mk o' e => cases e <;> simp only [forget_holding, forget_fail, forget_pure']

theorem forget_propsLoop (mk : JSObj Val → Node) (env : DEnv) (e : Tag) (f : Nat) (o : JSObj Val) (c : Nat) :
    forget (propsLoop mk env rec e f o c) = V8.propsLoop env (fun t => forget (rec t)) e f o c := by
  induction f generalizing o c with
  | zero => simp only [propsLoop, forget_holding, forget_fail]; rfl
  | succ f ih =>
    simp only [propsLoop, V8.propsLoop, forget_bind, forget_step, forget_pure, forget_ite, forget_holding,
      forget_decodeNext, forget_putProp, forget_fail, ih]

theorem forget_readProps (mk : JSObj Val → Node) (env : DEnv) (e : Tag) (o : JSObj Val) :
    forget (readProps mk env rec e o) = V8.readProps env (fun t => forget (rec t)) e o := by
  simp only [readProps, forget_bind, forget_step, forget_pure, forget_holding, forget_propsLoop]; rfl

theorem forget_decodeJSObject (env : DEnv) :
    forget (decodeJSObject env rec) = V8.decodeJSObject env (fun t => forget (rec t)) := by
  simp only [decodeJSObject, forget_bind, forget_step, forget_pure, forget_readProps]; rfl

theorem forget_elemsLoop (env : DEnv) (n i : Nat) (o : JSObj Val) :
    forget (elemsLoop env rec n i o) = V8.elemsLoop env (fun t => forget (rec t)) n i o := by
  induction n generalizing i o with
  | zero => rfl
  | succ n ih =>
    simp only [elemsLoop, V8.elemsLoop, forget_bind, forget_holding, forget_decodeNext, forget_putProp, ih]

theorem forget_decodeDenseArray (env : DEnv) :
    forget (decodeDenseArray env rec) = V8.decodeDenseArray env (fun t => forget (rec t)) := by
  simp only [decodeDenseArray, forget_bind, forget_step, forget_pure, forget_holding, forget_readProps,
    forget_elemsLoop]; rfl

theorem forget_resizeTo (env : DEnv) (n : Nat) (o : JSObj Val) :
    forget (resizeTo env n o) = V8.resizeTo env n o := by
  simp only [resizeTo, forget_ite, forget_pure', forget_putProp]; rfl

theorem forget_decodeSparseArray (env : DEnv) :
    forget (decodeSparseArray env rec) = V8.decodeSparseArray env (fun t => forget (rec t)) := by
  simp only [decodeSparseArray, forget_bind, forget_step, forget_pure, forget_holding, forget_readProps,
    forget_resizeTo]; rfl

theorem forget_readFixedBuffer : forget readFixedBuffer = V8.readFixedBuffer := by
  simp only [readFixedBuffer, forget_bind, forget_step, forget_pure]; rfl

theorem forget_readResizableBuffer : forget readResizableBuffer = V8.readResizableBuffer := by
  simp only [readResizableBuffer, forget_bind, forget_step, forget_pure]; rfl

theorem forget_readSharedBuffer : forget readSharedBuffer = V8.readSharedBuffer := by
  simp only [readSharedBuffer, forget_bind, forget_step, forget_pure]; rfl

theorem forget_readTransferBuffer : forget readTransferBuffer = V8.readTransferBuffer := by
  simp only [readTransferBuffer, forget_bind, forget_step, forget_pure]; rfl

theorem forget_readArrayBuffer (t : Tag) : forget (readArrayBuffer t) = V8.readArrayBuffer t := by
  cases t <;> first
    | rfl
    | exact forget_readFixedBuffer
    | exact forget_readResizableBuffer
    | exact forget_readSharedBuffer
    | exact forget_readTransferBuffer

theorem forget_readView (b : Val) : forget (readView b) = V8.readView b := by
  simp only [readView, forget_bind, forget_step, forget_pure]; rfl

theorem forget_viewAfter (b : Val) : forget (viewAfter b) = V8.viewAfter b := by
  simp only [viewAfter, forget_bind, forget_step, forget_pure, forget_ite, forget_readView]; rfl

theorem forget_decodeArrayBuffer (t : Tag) : forget (decodeArrayBuffer t) = V8.decodeArrayBuffer t := by
  simp only [decodeArrayBuffer, forget_bind, forget_readArrayBuffer, forget_viewAfter]; rfl

theorem forget_decodeReference : forget decodeReference = V8.decodeReference := by
  simp only [decodeReference, forget_bind, forget_step, forget_pure, forget_ite, forget_viewAfter]; rfl

theorem forget_decodeSharedRef : forget decodeSharedRef = V8.decodeSharedRef := by
  simp only [decodeSharedRef, forget_bind, forget_step, forget_pure]; rfl

theorem forget_decodeNodeHostObject : forget decodeNodeHostObject = V8.decodeNodeHostObject := by
  simp only [decodeNodeHostObject, forget_bind, forget_step, forget_pure]; rfl

theorem forget_decodeHostObject (env : DEnv) : forget (decodeHostObject env) = V8.decodeHostObject env := by
  simp only [decodeHostObject, forget_ite, forget_decodeNodeHostObject, forget_fail]; rfl

theorem forget_tagReader (env : DEnv) (t : Tag) :
    forget (tagReader env rec t) = V8.tagReader env (fun t => forget (rec t)) t unhandledTag := by
  cases t <;> first
    | rfl
    | (simp only [tagReader, forget_bind, forget_step, forget_pure]; rfl)
    | exact forget_decodeRegExp rec
    | exact forget_decodeJSMap rec
    | exact forget_decodeJSSet rec
    | exact forget_decodeReference
    | exact forget_decodeJSObject rec env
    | exact forget_decodeDenseArray rec env
    | exact forget_decodeSparseArray rec env
    | exact forget_decodeArrayBuffer _
    | exact forget_decodePrimObj _
    | exact forget_decodeError rec
    | exact forget_decodeDate env
    | exact forget_decodeSharedRef
    | exact forget_decodeHostObject env

theorem forget_decodeTag (env : DEnv) (f : Nat) (t : Tag) :
    forget (decodeTag env f t) = V8.decodeTag env f t := by
  induction f generalizing t with
  | zero => rfl
  | succ f ih =>
    rw [decodeTag_succ, decodeTag, forget_bind, forget_step]
    have h : (fun t => forget (decodeTag env f t)) = V8.decodeTag env f := funext ih
    simp only [forget_tagReader, h]

/-- What the exceptions carry is the only difference. -/
theorem loads_forget (env : DEnv) (d : Bytes) : (loads env d).mapError (·.err) = V8.loads env d := by
  unfold loads V8.loads
  cases readHeader d 0 with
  | error e => rfl
  | ok r =>
    obtain ⟨version, p⟩ := r
    have h : (fun t => forget (decodeTag env (d.length - p + 1) t)) = V8.decodeTag env (d.length - p + 1) :=
      funext fun t => forget_decodeTag env _ t
    show forget (decodeNext _) d _ = _
    rw [forget_decodeNext, h]

end V8.Fail
