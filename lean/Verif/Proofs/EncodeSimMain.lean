import Verif.Proofs.EncodeSim
import Verif.Proofs.EncodeSize

/-! Helper lemmas: two encoders on graphs of the same form stay in step, continued: objects. -/

namespace V8
open Spec

section
variable {e e' : EEnv} {R : Val → Val → Prop}

/-! ## Items of objects and arrays -/

theorem items_vals {l l' : List (PKey × Val)} (h : SameFormItems R l l') :
    List.Forall₂ (fun a b => SameFormVal R a.1 b.1 ∧ SameFormVal R a.2 b.2) (itemVals l) (itemVals l') := by
  unfold itemVals
  rw [List.forall₂_map_left_iff, List.forall₂_map_right_iff]
  refine h.imp ?_
  rintro ⟨k, v⟩ ⟨k', v'⟩ ⟨h1, h2⟩
  simp only at h1
  subst h1
  refine ⟨?_, h2⟩
  cases k <;> exact rfl

theorem items_split {a a' : List (Nat × Val)} {p p' : Dict Str Val}
    (h : SameFormItems R (a.map (fun e => (PKey.idx e.1, e.2)) ++ p.map (fun e => (PKey.name e.1, e.2)))
      (a'.map (fun e => (PKey.idx e.1, e.2)) ++ p'.map (fun e => (PKey.name e.1, e.2)))) :
    List.Forall₂ (fun x y => x.1 = y.1 ∧ SameFormVal R x.2 y.2) a a' ∧
    List.Forall₂ (fun x y => x.1 = y.1 ∧ SameFormVal R x.2 y.2) p p' := by
  induction a generalizing a' with
  | nil =>
    cases a' with
    | nil =>
      refine ⟨.nil, ?_⟩
      unfold SameFormItems at h
      simp only [List.map_nil, List.nil_append, List.forall₂_map_left_iff, List.forall₂_map_right_iff] at h
      refine h.imp ?_
      rintro ⟨k, v⟩ ⟨k', v'⟩ ⟨h1, h2⟩
      cases h1
      exact ⟨rfl, h2⟩
    | cons y t =>
      cases p with
      | nil => cases h
      | cons z u =>
        cases h with
        | cons h1 _ => cases h1.1
  | cons x s ih =>
    cases a' with
    | nil =>
      cases p' with
      | nil => cases h
      | cons z u =>
        cases h with
        | cons h1 _ => cases h1.1
    | cons y t =>
      cases h with
      | cons h1 h2 =>
        obtain ⟨h3, h4⟩ := ih h2
        obtain ⟨k, v⟩ := h1
        injection k with k
        exact ⟨.cons ⟨k, v⟩ h3, h4⟩

theorem prop_vals {p p' : Dict Str Val} (h : List.Forall₂ (fun x y => x.1 = y.1 ∧ SameFormVal R x.2 y.2) p p') :
    List.Forall₂ (fun a b => SameFormVal R a.1 b.1 ∧ SameFormVal R a.2 b.2) (propVals p) (propVals p') := by
  unfold propVals
  rw [List.forall₂_map_left_iff, List.forall₂_map_right_iff]
  refine h.imp ?_
  rintro ⟨k, v⟩ ⟨k', v'⟩ ⟨h1, h2⟩
  simp only at h1
  subst h1
  exact ⟨rfl, h2⟩

theorem forall₂_mem {α β : Type} {r : α → β → Prop} {l : List α} {l' : List β} (h : List.Forall₂ r l l') :
    (∀ a ∈ l, ∃ b ∈ l', r a b) ∧ ∀ b ∈ l', ∃ a ∈ l, r a b := by
  induction h with
  | nil => simp
  | cons h _ ih =>
    constructor
    · intro a ha
      rcases List.mem_cons.1 ha with rfl | ha
      · exact ⟨_, List.mem_cons_self .., h⟩
      · obtain ⟨b, hb, hr⟩ := ih.1 a ha; exact ⟨b, List.mem_cons_of_mem _ hb, hr⟩
    · intro b hb
      rcases List.mem_cons.1 hb with rfl | hb
      · exact ⟨_, List.mem_cons_self .., h⟩
      · obtain ⟨a, ha, hr⟩ := ih.2 b hb; exact ⟨a, List.mem_cons_of_mem _ ha, hr⟩

/-- Arrays with the same items and the same length have the same elements. -/
theorem elements_alike {l l' : List (Option Val)} (hl : l.length = l'.length)
    (h : List.Forall₂ (fun x y => x.1 = y.1 ∧ SameFormVal R x.2 y.2) (itemsOf l) (itemsOf l')) :
    List.Forall₂ (SameFormVal R) (l.map elemVal) (l'.map elemVal) := by
  rw [List.forall₂_iff_get]
  refine ⟨by simp [hl], ?_⟩
  intro k h1 h2
  simp only [List.length_map] at h1 h2
  simp only [List.get_eq_getElem, List.getElem_map]
  obtain ⟨m1, m2⟩ := forall₂_mem h
  cases ha : l[k] with
  | some v =>
    have hm : (k, v) ∈ itemsOf l := by rw [mem_itemsOf, List.getElem?_eq_getElem h1, ha]; rfl
    obtain ⟨⟨k', w⟩, hm', hk, hv⟩ := m1 _ hm
    simp only at hk
    subst hk
    rw [mem_itemsOf, List.getElem?_eq_getElem h2] at hm'
    have : l'[k] = some w := by simpa using hm'
    rw [this]
    exact hv
  | none =>
    cases hb : l'[k] with
    | none => exact rfl
    | some w =>
      have hm : (k, w) ∈ itemsOf l' := by rw [mem_itemsOf, List.getElem?_eq_getElem h2, hb]; rfl
      obtain ⟨⟨k', v⟩, hm', hk, hv⟩ := m2 _ hm
      simp only at hk
      subst hk
      rw [mem_itemsOf, List.getElem?_eq_getElem h1, ha] at hm'
      cases hm'

theorem itemsOf_some {α : Type} (l : List α) : itemsOf (l.map some) = l.zipIdx.map (fun p => (p.2, p.1)) := by
  refine sorted_items_unique (itemsOf_sorted _) ?_ ?_
  · rw [List.pairwise_map]
    have : (l.zipIdx.map (fun p => p.2)).Pairwise (· < ·) := by
      have h : l.zipIdx.map (fun p => p.2) = List.range l.length := by
        rw [List.zipIdx_map_snd, List.range_eq_range']
      rw [h]
      exact List.pairwise_lt_range
    rw [List.pairwise_map] at this
    exact this
  · rintro ⟨k, v⟩
    rw [mem_itemsOf]
    simp only [List.getElem?_map, List.mem_map, Prod.mk.injEq, Prod.exists]
    constructor
    · intro h
      refine ⟨v, k, ?_, rfl, rfl⟩
      rw [List.mem_zipIdx_iff_getElem?]
      cases hk : l[k]? with
      | none => rw [hk] at h; cases h
      | some w => rw [hk] at h; simpa using h
    · rintro ⟨a, b, h, rfl, rfl⟩
      rw [List.mem_zipIdx_iff_getElem?] at h
      simp only at h
      rw [h]
      rfl

/-! ## Objects -/

variable (H : SameForm e e' R) (hf : e.feats = e'.feats) (ht : WellTyped e) (ht' : WellTyped e')
  {rec rec' : Val → Wr} (hr : ∀ v w, SameFormVal R v w → InStep e e' R (rec v) (rec' w))

include H in
theorem step_fixedBuffer {x y : Val} (hxy : R x y) (bs : Bytes) :
    InStep e e' R (writeFixedBuffer bs x) (writeFixedBuffer bs y) :=
  key (writeUint32 bs.length)
where
  key (r : Except EErr Bytes) : InStep e e' R
      (fun ws => do
        let ws ← recordRef x ws
        let ws ← writeTag .kArrayBuffer ws
        let ws ← emitE r ws
        emit bs ws)
      (fun ws => do
        let ws ← recordRef y ws
        let ws ← writeTag .kArrayBuffer ws
        let ws ← emitE r ws
        emit bs ws) :=
    (sim_record H hxy).bind ((sim_tag _).bind ((sim_emitE r).bind (sim_emit _)))

/-- How a buffer with contents `bs` is written, growing up to `max` if that is given. -/
def writeBufferForm (x : Val) (f : Bytes × Option Nat) : Wr := fun ws =>
  match f.2 with
  | none => writeFixedBuffer f.1 x ws
  | some m =>
    if m < f.1.length then .error (.py .valueError)
    else do
      let ws ← recordRef x ws
      let ws ← writeTag .kResizableArrayBuffer ws
      let ws ← emitE (writeUint32 f.1.length) ws
      let ws ← emitE (writeUint32 m) ws
      emit f.1 ws

include H in
theorem step_bufferForm {x y : Val} (hxy : R x y) (f : Bytes × Option Nat) :
    InStep e e' R (writeBufferForm x f) (writeBufferForm y f) := by
  intro ws ws' h
  unfold writeBufferForm
  cases f.2 with
  | none => exact step_fixedBuffer H hxy _ ws ws' h
  | some m =>
    simp only
    split
    · rfl
    · exact (sim_record H hxy).bind ((sim_tag _).bind ((sim_emitE _).bind ((sim_emitE _).bind (sim_emit _)))) ws ws' h

theorem serialize_buffer {rec next : Val → Wr} {x : Val} {n : Node} {f : Bytes × Option Nat} (h : bufferForm e.feats n = some f) :
    serializeNode e rec next x n = writeBufferForm x f := by
  cases n with
  | abuf b =>
    simp only [bufferForm] at h
    cases h
    funext ws
    simp only [serializeNode, writeArrayBuffer, writeBufferForm]
    by_cases hb : b.resizable = true ∧ e.feats.resizableArrayBuffers = true
    · rw [if_pos hb, if_pos (by simp [hb])]
      rfl
    · rw [if_neg hb, if_neg (by simpa using hb)]
  | rawBuf a bs =>
    simp only [bufferForm] at h
    cases h
    rfl
  | _ => cases h

include H hr in
theorem step_jsarr {x y : Val} (hxy : R x y) {o o' : JSObj Val} (hi : o.Inv) (hi' : o'.Inv)
    (hl : o.array.len = o'.array.len) (h : SameFormItems R o.items o'.items) :
    InStep e e' R (serializeJSArray rec o x) (serializeJSArray rec' o' y) := by
  intro ws ws' hs
  have h0 := h
  rw [JSObj.items_eq hi, JSObj.items_eq hi'] at h
  obtain ⟨h1, h2⟩ := items_split h
  have hlen : o.array.abs.length = o'.array.abs.length := by
    have a := Arr.len_eq hi.arr
    have b := Arr.len_eq hi'.arr
    omega
  have hu : o.array.used = o'.array.used := by
    rw [Arr.used_eq hi.arr, Arr.used_eq hi'.arr, ← itemsOf_length, ← itemsOf_length, h1.length_eq]
  unfold serializeJSArray
  rw [hu, hl]
  split
  · exact sim_sparse H hr hxy (items_vals h0) _ ws ws' hs
  · rw [Arr.toList_eq hi.arr, Arr.toList_eq hi'.arr]
    exact sim_dense H hr hxy (elements_alike hlen h1) (prop_vals h2) ws ws' hs

include H hr hf in
theorem step_node {x y : Val} (hxy : R x y) {n n' : Node} (h : SameFormNode e e' R n n')
    (hn : ∀ o, n = .jsobj o ∨ n = .jsarr o → o.Inv) (hn' : ∀ o, n' = .jsobj o ∨ n' = .jsarr o → o.Inv) :
    InStep e e' R (serializeNode e rec unhandledValue x n) (serializeNode e' rec' unhandledValue y n') := by
  have buf : ∀ {n n' : Node}, (∃ f, bufferForm e.feats n = some f ∧ bufferForm e'.feats n' = some f) →
      InStep e e' R (serializeNode e rec unhandledValue x n) (serializeNode e' rec' unhandledValue y n') := by
    rintro n n' ⟨f, h1, h2⟩
    rw [serialize_buffer h1, serialize_buffer h2]
    exact step_bufferForm H hxy f
  cases n with
  | jsmap es =>
    cases n' with
    | jsmap es' =>
      simp only [serializeNode]
      unfold writeJSMap
      rw [List.Forall₂.length_eq h]
      exact (sim_record H hxy).bind ((sim_tag _).bind ((sim_entries hr h).bind ((sim_tag _).bind (sim_emit _))))
    | _ => exact buf h
  | jsset ms =>
    cases n' with
    | jsset ms' =>
      simp only [serializeNode]
      unfold writeJSSet
      rw [List.Forall₂.length_eq h]
      exact (sim_record H hxy).bind ((sim_tag _).bind ((sim_vals hr h).bind ((sim_tag _).bind (sim_emit _))))
    | _ => exact buf h
  | jsobj o =>
    cases n' with
    | jsobj o' => exact (sim_record H hxy).bind ((sim_tag _).bind (sim_objectProps hr (items_vals h) _))
    | _ => exact buf h
  | jsarr o =>
    cases n' with
    | jsarr o' => exact step_jsarr H hr hxy (hn o (.inr rfl)) (hn' o' (.inr rfl)) h.1 h.2
    | _ => exact buf h
  | pylist l =>
    cases n' with
    | pylist l' => exact sim_dense H hr hxy h .nil
    | jsarr o' =>
      obtain ⟨h1, h2, h3⟩ := h
      have hi' := hn' o' (.inr rfl)
      have e1 : (l.zipIdx.map fun p => (PKey.idx p.2, p.1)) =
          (itemsOf (l.map some)).map (fun e => (PKey.idx e.1, e.2)) ++ ([] : Dict Str Val).map (fun e => (PKey.name e.1, e.2)) := by
        rw [itemsOf_some]
        simp [List.map_map, Function.comp_def]
      rw [e1, JSObj.items_eq hi'] at h3
      obtain ⟨h4, h5⟩ := items_split h3
      have hp : o'.props = [] := List.forall₂_nil_left_iff.1 h5
      have hlen : (l.map some).length = o'.array.abs.length := by
        have b := Arr.len_eq hi'.arr
        simp only [List.length_map]
        omega
      have hu : o'.array.used = o'.array.len := by
        rw [Arr.used_eq hi'.arr, ← itemsOf_length, ← h4.length_eq, itemsOf_some, h2]
        simp
      have hel := elements_alike hlen h4
      have hmap : (l.map some).map elemVal = l := by
        rw [List.map_map]
        exact List.map_id' _
      rw [hmap] at hel
      intro ws ws' hs
      simp only [serializeNode, serializeJSArray]
      rw [if_neg]
      · rw [Arr.toList_eq hi'.arr, hp]
        exact sim_dense H hr hxy hel .nil ws ws' hs
      · unfold sparseIsSmaller
        rw [hu, h2]
        simp only [decide_eq_true_eq]
        split <;> omega
    | _ => exact buf h
  | date d =>
    cases n' with
    | date d' =>
      intro ws ws' hs
      simp only [serializeNode, writeDate]
      rw [show e.py.dateMs d = e'.py.dateMs d' from h]
      cases e'.py.dateMs d' with
      | error x => rfl
      | ok ms => exact (sim_record H hxy).bind ((sim_tag _).bind (sim_emit _)) ws ws' hs
    | _ => exact buf h
  | primObj p =>
    cases n' with
    | primObj p' =>
      rw [show p = p' from h]
      exact (sim_record H hxy).bind ((sim_tag _).bind (sim_emitE _))
    | _ => exact buf h
  | regexp r =>
    cases n' with
    | regexp r' =>
      simp only [serializeNode]
      unfold writeRegExp
      rw [h.1, h.2]
      exact sim_mark.bind ((sim_tag _).bind ((sim_tagged _ _).bind (sim_emit _)))
    | _ => exact buf h
  | error name msg stack cause =>
    cases n' with
    | error name' msg' stack' cause' =>
      obtain ⟨h1, rfl, rfl, h4⟩ := h
      simp only [serializeNode, hf]
      exact sim_error H hr _ hxy h1 _ _ h4
    | _ => exact buf h
  | sharedBuf id =>
    cases n' with
    | sharedBuf id' =>
      rw [show id = id' from h]
      intro ws ws' hs
      simp only [serializeNode, writeBufferId]
      split
      · rfl
      · exact sim_mark.bind ((sim_record H hxy).bind ((sim_tag _).bind (sim_emit _))) ws ws' hs
    | _ => exact buf h
  | transferBuf id =>
    cases n' with
    | transferBuf id' =>
      rw [show id = id' from h]
      intro ws ws' hs
      simp only [serializeNode, writeBufferId]
      split
      · rfl
      · exact sim_mark.bind ((sim_record H hxy).bind ((sim_tag _).bind (sim_emit _))) ws ws' hs
    | _ => exact buf h
  | view b v =>
    cases n' with
    | view b' v' =>
      obtain ⟨h1, h2, h3, h4, h5, h6⟩ := h
      intro ws ws' hs
      simp only [serializeNode]
      rw [h2, hf]
      by_cases hc : v'.tag = .float16 ∧ e'.feats.float16Array = false
      · rw [if_pos hc, if_pos hc]; rfl
      · rw [if_neg hc, if_neg hc]
        refine InStep.bind (hr _ _ h1) ?_ ws ws' hs
        intro ws ws' hs
        unfold writeView
        rw [h2, h3, h4, h6, h5, hf]
        simp only [if_neg hc]
        exact (sim_record H hxy).bind ((sim_tag _).bind ((sim_emit _).bind ((sim_emitE _).bind ((sim_emitE _).bind (sim_emit _))))) ws ws' hs
    | _ => exact buf h
  | sharedRef id =>
    cases n' with
    | sharedRef id' =>
      rw [show id = id' from h]
      exact (sim_record H hxy).bind ((sim_tag _).bind (sim_emitE _))
    | _ => exact buf h
  | other =>
    cases n' with
    | other => exact sim_fail _
    | _ => exact buf h
  | abuf b => exact buf h
  | rawBuf a b => exact buf h

/-! ## Values -/

theorem step_int {n : Int} {x : F64} (h1 : ¬ (-2 ^ 31 ≤ n ∧ n < 2 ^ 32)) (h2 : n.natAbs ≤ 2 ^ 53 - 1)
    (h3 : fval x = .fin (n * 2 ^ 1074)) : serializeInt n = writeDoubleTagged x := by
  rw [doubleOfInt_unique h2 (by omega) h3]
  funext ws
  unfold serializeInt
  rw [if_neg, if_neg, if_pos]
  · unfold inSafeInt
    simp only [Bool.and_eq_true, decide_eq_true_eq]
    omega
  · unfold inInt32
    simp only [Bool.and_eq_true, decide_eq_true_eq]
    omega
  · unfold inUint32
    simp only [Bool.and_eq_true, decide_eq_true_eq]
    omega

theorem tagWriter_ref {env : EEnv} {rec next : Val → Wr} {x : Val} {n : Node} (h : contents env.heap x = some n) :
    tagWriter env rec x next = serializeNode env rec next x n := by
  cases x with
  | obj i =>
    simp only [contents] at h
    simp only [tagWriter, h]
  | bytes b =>
    simp only [contents] at h
    cases h
    rfl
  | _ => cases h

theorem sim_serializeInt (n : Int) : InStep e e' R (serializeInt n) (serializeInt n) := by
  intro ws ws' h
  unfold serializeInt
  rw [h.allowed]
  split
  · exact sim_tagged _ _ _ _ h
  · split
    · exact sim_tagged _ _ _ _ h
    · split
      · exact sim_double _ _ _ h
      · split
        · exact sim_tagged _ _ _ _ h
        · exact sim_tagged _ _ _ _ h

include H hr hf ht ht' in
theorem step_tagWriter {v w : Val} (h : SameFormVal R v w) :
    InStep e e' R (tagWriter e rec v unhandledValue) (tagWriter e' rec' w unhandledValue) := by
  by_cases hv : v.IsRef
  · have hR := (SameFormVal.ref hv).1 h
    obtain ⟨n, n', h1, h2, h3⟩ := H.content hR
    rw [tagWriter_ref h1, tagWriter_ref h2]
    refine step_node H hf hr hR h3 ?_ ?_
    · intro o ho
      cases v with
      | obj i => exact ht.objects i o (by rcases ho with rfl | rfl; exacts [.inl h1, .inr h1])
      | bytes b => simp only [contents] at h1; cases h1; rcases ho with ho | ho <;> cases ho
      | _ => cases hv
    · intro o ho
      have hw := (H.refs hR).2
      cases w with
      | obj i => exact ht'.objects i o (by rcases ho with rfl | rfl; exacts [.inl h2, .inr h2])
      | bytes b => simp only [contents] at h2; cases h2; rcases ho with ho | ho <;> cases ho
      | _ => cases hw
  · rcases SameFormVal.scalar h hv with rfl | ⟨n, x, rfl, rfl, h1, h2, h3⟩
    · cases v with
      | obj i => exact absurd trivial hv
      | bytes b => exact absurd trivial hv
      | bool b => cases b <;> exact sim_constant _
      | hole => exact sim_constant _
      | undef => exact sim_constant _
      | null => exact sim_constant _
      | int n => exact sim_serializeInt n
      | float x => exact sim_double x
      | str s => exact sim_tagged _ _
    · simp only [tagWriter]
      rw [step_int h1 h2 h3]
      exact sim_double x

end

theorem step_encode {e e' : EEnv} {R : Val → Val → Prop} (H : SameForm e e' R) (hf : e.feats = e'.feats) (ht : WellTyped e)
    (ht' : WellTyped e') (f : Nat) : ∀ v w, SameFormVal R v w → InStep e e' R (encodeObject e f v) (encodeObject e' f w) := by
  induction f with
  | zero => intro v w _ ws ws' _; rfl
  | succ f ih =>
    intro v w h ws ws' hs
    rw [encodeObject_succ, encodeObject_succ]
    unfold refsStep
    simp only [dedup_rep]
    obtain ⟨h1, h2⟩ := hs.memo.step H h
    have hs1 : SimSt e e' R { ws with memo := memoStep e ws.memo v } { ws' with memo := memoStep e' ws'.memo w } :=
      { hs with memo := h2 }
    generalize hv' : rep e ws.memo v = v1 at *
    generalize hw' : rep e' ws'.memo w = w1 at *
    by_cases hv : v1.IsRef
    · have hR := (SameFormVal.ref hv).1 h1
      rw [hs.log.contains hR]
      split
      · exact sim_reference hR _ _ hs1
      · exact step_tagWriter H hf ht ht' ih h1 _ _ hs1
    · have hw : ¬ w1.IsRef := by
        rcases SameFormVal.scalar h1 hv with rfl | ⟨n, x, rfl, rfl, _⟩
        · exact hv
        · exact id
      rw [if_neg (fun hc => hv ((hs.only v1).1 hc)), if_neg (fun hc => hw ((hs.only w1).2 hc))]
      exact step_tagWriter H hf ht ht' ih h1 _ _ hs1

end V8
