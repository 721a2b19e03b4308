import Verif.Spec.WriteFail

/-!
# Lemmas about write methods that raise (C91)
-/

namespace V8.WriteFail
open V8 V8.Spec.WriteFail

/-! ## Agreement with `Model/Encode` -/

theorem agree_step (w : Wr) : Agree (step w) w := by
  intro ws
  unfold step
  cases w ws <;> rfl

theorem agree_skip : Agree skip (fun ws => .ok ws) := fun _ => rfl

theorem agree_seq {a b : Wx} {w u : Wr} (ha : Agree a w) (hb : Agree b u) :
    Agree (seq a b) (fun ws => w ws >>= u) := by
  intro ws
  show (w ws >>= u) = _
  rw [ha ws]
  unfold seq
  rcases h : a ws with ⟨ws', _ | e⟩
  · exact hb ws'
  · rfl

theorem agree_varint (n : Nat) : Agree (varint n) (emit (writeVarint n)) := by
  have : varint n = step (emit (writeVarint n)) := by
    unfold varint payload
    rw [writeVarintInt, if_neg (by omega)]
    rfl
  rw [this]
  exact agree_step _

theorem agree_tagged (t : Tag) (r : Except EErr Bytes) : Agree (tagged t r) (writeTagged t r) := by
  unfold tagged writeTagged
  cases r with
  | error e => exact fun _ => rfl
  | ok bs => exact agree_seq (agree_step _) (agree_step _)

theorem agree_constrained {c : TagConstraint} {m : Wx} {w : Wr} (h : Agree m w) :
    Agree (constrained c m) (fun ws => do
      let ws ← w { ws with allowed := some c }
      return { ws with allowed := none }) := by
  intro ws
  show (w _ >>= _) = _
  rw [h]
  unfold constrained
  rcases hm : m { ws with allowed := some c } with ⟨ws', _ | e⟩ <;> rfl

theorem agree_vals {rx : Val → Wx} {rec : Val → Wr} (h : ∀ v, Agree (rx v) (rec v)) :
    ∀ l, Agree (vals rx l) (writeVals rec l)
  | [] => agree_skip
  | v :: t => agree_seq (h v) (agree_vals h t)

theorem agree_entries {rx : Val → Wx} {rec : Val → Wr} (h : ∀ v, Agree (rx v) (rec v)) :
    ∀ l, Agree (entries rx l) (writeEntries rec l)
  | [] => agree_skip
  | (k, v) :: t => agree_seq (h k) (agree_seq (h v) (agree_entries h t))

theorem agree_props {rx : Val → Wx} {rec : Val → Wr} (h : ∀ v, Agree (rx v) (rec v)) :
    ∀ l, Agree (props rx l) (writeProps rec l)
  | [] => agree_skip
  | (k, v) :: t => agree_seq (agree_constrained (h k)) (agree_seq (h v) (agree_props h t))

theorem agree_objectProps {rx : Val → Wx} {rec : Val → Wr} (h : ∀ v, Agree (rx v) (rec v)) (l : List (Val × Val)) (t : Tag) :
    Agree (objectProps rx l t) (writeObjectProps rec l t) :=
  agree_seq (agree_props h l) (agree_seq (agree_step _) (agree_varint _))

theorem agree_errProto (name : Str) : Agree (errProto name) (writeErrProto name) := by
  unfold errProto writeErrProto
  cases (ErrName.forName name).tag with
  | none => exact agree_skip
  | some t => exact agree_varint _

theorem agree_errText (t : ErrTag) (s : Option Str) : Agree (errText t s) (writeErrText t s) := by
  unfold errText writeErrText
  cases s with
  | none => exact agree_skip
  | some s => exact agree_seq (agree_varint _) (agree_tagged _ _)

theorem agree_acyclic {m : Wx} {w : Wr} (identity : Val) (h : Agree m w) :
    Agree (acyclic identity m) (fun ws =>
      match w { ws with log := (ws.log.beginAcyclic identity).1 } with
      | .error e => .error (acyclicExc (ws.log.beginAcyclic identity).2 e)
      | .ok ws' => .ok { ws' with log := ws'.log.endAcyclic (ws.log.beginAcyclic identity).2 identity }) := by
  intro ws
  simp only [acyclic]
  rw [h]
  rcases hm : m { ws with log := (ws.log.beginAcyclic identity).1 } with ⟨ws', _ | e⟩ <;> rfl

theorem agree_cause {rx : Val → Wx} {rec : Val → Wr} (h : ∀ v, Agree (rx v) (rec v)) (circular : Bool) (identity v : Val) :
    Agree (cause circular rx identity v) (writeCause circular rec identity v) := by
  unfold cause writeCause
  cases circular with
  | true => exact agree_seq (agree_varint _) (agree_seq (agree_step _) (h v))
  | false => exact agree_seq (agree_varint _) (agree_acyclic identity (h v))

theorem agree_payload (r : Except EErr Bytes) : Agree (payload r) (emitE r) := agree_step _

/-! ## Only appending -/

theorem later_refl (ws : WS) : Later ws ws := ⟨List.prefix_refl _, fun _ _ h => h⟩

theorem later_trans {a b c : WS} (h : Later a b) (g : Later b c) : Later a c :=
  ⟨h.data.trans g.data, fun i s q => g.log i s (h.log i s q)⟩

theorem appends_seq {a b : Wx} (ha : OnlyAppends a) (hb : OnlyAppends b) : OnlyAppends (seq a b) := by
  intro ws
  have h := ha ws
  unfold seq
  rcases hq : a ws with ⟨ws', _ | e⟩
  · rw [hq] at h
    exact later_trans h (hb ws')
  · rw [hq] at h
    exact h

theorem appends_skip : OnlyAppends skip := fun ws => later_refl ws

theorem appends_throwing (e : EErr) : OnlyAppends (throwing e) := fun ws => later_refl ws

theorem appends_step {w : Wr} (h : ∀ ws ws', w ws = .ok ws' → Later ws ws') : OnlyAppends (step w) := by
  intro ws
  unfold step
  cases hw : w ws with
  | error e => exact later_refl ws
  | ok ws' => exact h ws ws' hw

theorem emit_later (bs : Bytes) (ws ws' : WS) (h : emit bs ws = .ok ws') : Later ws ws' := by
  cases h
  exact ⟨List.prefix_append _ _, fun _ _ q => q⟩

theorem appends_tag (t : Tag) : OnlyAppends (tag t) := by
  apply appends_step
  intro ws ws' h
  unfold writeTag at h
  split at h
  · exact emit_later _ _ _ h
  · split at h
    · exact emit_later _ _ _ h
    · cases h

theorem appends_payload (r : Except EErr Bytes) : OnlyAppends (payload r) := by
  apply appends_step
  intro ws ws' h
  unfold emitE at h
  cases r with
  | error e => cases h
  | ok bs => exact emit_later _ _ _ h

theorem appends_emit (bs : Bytes) : OnlyAppends (step (emit bs)) := appends_step (emit_later bs)

theorem appends_varint (n : Int) : OnlyAppends (varint n) := appends_payload _

theorem appends_record (v : Val) : OnlyAppends (step (recordRef v)) := by
  apply appends_step
  intro ws ws' h
  cases h
  refine ⟨List.prefix_refl _, fun i s q => ?_⟩
  have hi : i < ws.log.slots.length := (List.getElem?_eq_some_iff.1 q).1
  simp only [ObjLog.record]
  rw [List.getElem?_append_left hi]
  exact q

theorem appends_skew : OnlyAppends (step markSkew) := by
  apply appends_step
  intro ws ws' h
  cases h
  exact ⟨List.prefix_refl _, fun _ _ q => q⟩

theorem appends_note (n : Nat) : OnlyAppends (step (noteRef n)) := by
  apply appends_step
  intro ws ws' h
  cases h
  exact ⟨List.prefix_refl _, fun _ _ q => q⟩

theorem appends_tagged (t : Tag) (r : Except EErr Bytes) : OnlyAppends (tagged t r) := by
  unfold tagged
  cases r with
  | error e => exact appends_throwing e
  | ok bs => exact appends_seq (appends_tag t) (appends_emit bs)

theorem appends_constrained {c : TagConstraint} {m : Wx} (h : OnlyAppends m) : OnlyAppends (constrained c m) := by
  intro ws
  have := h { ws with allowed := some c }
  exact ⟨this.data, this.log⟩

theorem appends_vals {rx : Val → Wx} (h : ∀ v, OnlyAppends (rx v)) : ∀ l, OnlyAppends (vals rx l)
  | [] => appends_skip
  | v :: t => appends_seq (h v) (appends_vals h t)

theorem appends_entries {rx : Val → Wx} (h : ∀ v, OnlyAppends (rx v)) : ∀ l, OnlyAppends (entries rx l)
  | [] => appends_skip
  | (k, v) :: t => appends_seq (h k) (appends_seq (h v) (appends_entries h t))

theorem appends_props {rx : Val → Wx} (h : ∀ v, OnlyAppends (rx v)) : ∀ l, OnlyAppends (props rx l)
  | [] => appends_skip
  | (k, v) :: t => appends_seq (appends_constrained (h k)) (appends_seq (h v) (appends_props h t))

theorem appends_objectProps {rx : Val → Wx} (h : ∀ v, OnlyAppends (rx v)) (l : List (Val × Val)) (t : Tag) :
    OnlyAppends (objectProps rx l t) :=
  appends_seq (appends_props h l) (appends_seq (appends_tag t) (appends_varint _))

theorem appends_errProto (name : Str) : OnlyAppends (errProto name) := by
  unfold errProto
  split
  · exact appends_skip
  · exact appends_varint _

theorem appends_errText (t : ErrTag) (s : Option Str) : OnlyAppends (errText t s) := by
  unfold errText
  split
  · exact appends_skip
  · exact appends_seq (appends_varint _) (appends_tagged _ _)

theorem appends_acyclic {m : Wx} (identity : Val) (h : OnlyAppends m) : OnlyAppends (acyclic identity m) := by
  intro ws
  have := h { ws with log := (ws.log.beginAcyclic identity).1 }
  refine ⟨this.data, fun i s q => ?_⟩
  have hi : i < ws.log.slots.length := (List.getElem?_eq_some_iff.1 q).1
  have h1 : (ws.log.beginAcyclic identity).1.slots[i]? = some s := by
    simp only [ObjLog.beginAcyclic, ObjLog.record]
    rw [List.getElem?_set_ne (by omega), List.getElem?_append_left hi]
    exact q
  have h2 := this.log i s h1
  simp only [acyclic, ObjLog.endAcyclic]
  have hn : (ws.log.beginAcyclic identity).2 = ws.log.slots.length := rfl
  rw [hn, List.getElem?_set_ne (by omega)]
  exact h2

theorem appends_cause {rx : Val → Wx} (h : ∀ v, OnlyAppends (rx v)) (circular : Bool) (identity v : Val) :
    OnlyAppends (cause circular rx identity v) := by
  unfold cause
  cases circular with
  | true => exact appends_seq (appends_varint _) (appends_seq (appends_record _) (h v))
  | false => exact appends_seq (appends_varint _) (appends_acyclic identity (h v))

theorem appends_twoByte (s : Str) : OnlyAppends (twoByte s) := by
  intro ws
  unfold twoByte
  split
  · exact later_refl ws
  · rename_i bs _
    split
    · rename_i ws' e hq
      have := appends_tag .kTwoByteString ws
      rw [hq] at this
      exact this
    · exact ⟨List.prefix_append _ _, fun _ _ q => q⟩

/-! ## Constraints -/

theorem lifted_seq {a b : Wx} (ha : NoConstraintLeft a) (hb : NoConstraintLeft b) : NoConstraintLeft (seq a b) := by
  intro ws hw
  have h := ha ws hw
  unfold seq
  rcases hq : a ws with ⟨ws', _ | e⟩
  · rw [hq] at h
    exact hb ws' h
  · rw [hq] at h
    exact h

theorem lifted_skip : NoConstraintLeft skip := fun _ h => h

theorem lifted_throwing (e : EErr) : NoConstraintLeft (throwing e) := fun _ h => h

theorem lifted_step {w : Wr} (h : ∀ ws ws', w ws = .ok ws' → ws'.allowed = ws.allowed) : NoConstraintLeft (step w) := by
  intro ws hw
  unfold step
  cases hq : w ws with
  | error e => exact hw
  | ok ws' => exact (h ws ws' hq).trans hw

theorem lifted_tag (t : Tag) : NoConstraintLeft (tag t) := by
  apply lifted_step
  intro ws ws' h
  unfold writeTag at h
  split at h
  · cases h; rfl
  · split at h
    · cases h; rfl
    · cases h

theorem lifted_payload (r : Except EErr Bytes) : NoConstraintLeft (payload r) := by
  apply lifted_step
  intro ws ws' h
  unfold emitE at h
  cases r with
  | error e => cases h
  | ok bs => cases h; rfl

theorem lifted_varint (n : Int) : NoConstraintLeft (varint n) := lifted_payload _

theorem lifted_emit (bs : Bytes) : NoConstraintLeft (step (emit bs)) :=
  lifted_step fun _ _ h => by cases h; rfl

theorem lifted_record (v : Val) : NoConstraintLeft (step (recordRef v)) :=
  lifted_step fun _ _ h => by cases h; rfl

theorem lifted_skew : NoConstraintLeft (step markSkew) :=
  lifted_step fun _ _ h => by cases h; rfl

theorem lifted_note (n : Nat) : NoConstraintLeft (step (noteRef n)) :=
  lifted_step fun _ _ h => by cases h; rfl

theorem lifted_tagged (t : Tag) (r : Except EErr Bytes) : NoConstraintLeft (tagged t r) := by
  unfold tagged
  cases r with
  | error e => exact lifted_throwing e
  | ok bs => exact lifted_seq (lifted_tag t) (lifted_emit bs)

theorem lifted_constrained (c : TagConstraint) (m : Wx) : NoConstraintLeft (constrained c m) := fun _ _ => rfl

theorem lifted_vals {rx : Val → Wx} (h : ∀ v, NoConstraintLeft (rx v)) : ∀ l, NoConstraintLeft (vals rx l)
  | [] => lifted_skip
  | v :: t => lifted_seq (h v) (lifted_vals h t)

theorem lifted_entries {rx : Val → Wx} (h : ∀ v, NoConstraintLeft (rx v)) : ∀ l, NoConstraintLeft (entries rx l)
  | [] => lifted_skip
  | (k, v) :: t => lifted_seq (h k) (lifted_seq (h v) (lifted_entries h t))

theorem lifted_props {rx : Val → Wx} (h : ∀ v, NoConstraintLeft (rx v)) : ∀ l, NoConstraintLeft (props rx l)
  | [] => lifted_skip
  | (_, v) :: t => lifted_seq (lifted_constrained _ _) (lifted_seq (h v) (lifted_props h t))

theorem lifted_objectProps {rx : Val → Wx} (h : ∀ v, NoConstraintLeft (rx v)) (l : List (Val × Val)) (t : Tag) :
    NoConstraintLeft (objectProps rx l t) :=
  lifted_seq (lifted_props h l) (lifted_seq (lifted_tag t) (lifted_varint _))

theorem lifted_errProto (name : Str) : NoConstraintLeft (errProto name) := by
  unfold errProto
  split
  · exact lifted_skip
  · exact lifted_varint _

theorem lifted_errText (t : ErrTag) (s : Option Str) : NoConstraintLeft (errText t s) := by
  unfold errText
  split
  · exact lifted_skip
  · exact lifted_seq (lifted_varint _) (lifted_tagged _ _)

theorem lifted_acyclic {m : Wx} (identity : Val) (h : NoConstraintLeft m) : NoConstraintLeft (acyclic identity m) :=
  fun ws hw => h { ws with log := (ws.log.beginAcyclic identity).1 } hw

theorem lifted_cause {rx : Val → Wx} (h : ∀ v, NoConstraintLeft (rx v)) (circular : Bool) (identity v : Val) :
    NoConstraintLeft (cause circular rx identity v) := by
  unfold cause
  cases circular with
  | true => exact lifted_seq (lifted_varint _) (lifted_seq (lifted_record _) (h v))
  | false => exact lifted_seq (lifted_varint _) (lifted_acyclic identity (h v))

theorem lifted_twoByte (s : Str) : NoConstraintLeft (twoByte s) := by
  intro ws hw
  unfold twoByte
  split
  · exact hw
  · split
    · rename_i ws' e hq
      have := lifted_tag .kTwoByteString ws hw
      rw [hq] at this
      exact this
    · exact hw

/-! ## All or nothing -/

/-- A method that raises leaves everything as it was. -/
def Whole (m : Wx) : Prop := ∀ ws e, (m ws).2 = some e → (m ws).1 = ws

theorem whole_step (w : Wr) : Whole (step w) := by
  intro ws e h
  unfold step at h ⊢
  cases hw : w ws with
  | error x => rfl
  | ok ws' => rw [hw] at h; cases h

/-- A method of which nothing can raise after the first statement. -/
theorem whole_seq {a b : Wx} (ha : Whole a) (hb : ∀ ws, (b ws).2 = none) : Whole (seq a b) := by
  intro ws e h
  have q := ha ws
  unfold seq at h ⊢
  rcases hm : a ws with ⟨ws', _ | x⟩
  · rw [hm] at h
    rw [hb ws'] at h
    cases h
  · rw [hm] at q
    exact q x rfl

theorem emit_fine (bs : Bytes) (ws : WS) : (step (emit bs) ws).2 = none := rfl

theorem varint_fine (n : Nat) (ws : WS) : (varint n ws).2 = none := by
  unfold varint payload
  rw [writeVarintInt, if_neg (by omega)]
  rfl

theorem whole_tagged (t : Tag) (r : Except EErr Bytes) : Whole (tagged t r) := by
  unfold tagged
  cases r with
  | error e => exact fun _ _ _ => rfl
  | ok bs => exact whole_seq (whole_step _) (emit_fine bs)

end V8.WriteFail
