import Verif.Spec.Decoded
import Verif.Proofs.DecodeBounds
import Verif.Proofs.DecodeLocal
import Verif.Proofs.ObjBuild
import Verif.Proofs.Value
import Verif.Proofs.Keys
import Verif.Props.Text

/-!
# The objects that the decoder makes are well formed

One walk through the decoder with the invariant `NodeMade` of every object made so far.
-/

namespace V8
open Spec

/-- The objects that are created empty and filled later. -/
def Node.filled : Node → Bool
  | .jsmap _ => true
  | .jsset _ => true
  | .jsobj _ => true
  | .jsarr _ => true
  | .error _ _ _ _ => true
  | _ => false

/-- Later contents of a heap: objects stay what they are, except that containers are filled. -/
def HGrows (h h' : Heap) : Prop :=
  ∀ (i : Id) (n : Node), h[i]? = some n → ∃ n', h'[i]? = some n' ∧ (n' = n ∨ (n.filled = true ∧ n'.filled = true))

theorem HGrows.refl (h : Heap) : HGrows h h := fun _ n hn => ⟨n, hn, Or.inl rfl⟩

theorem HGrows.trans {a b c : Heap} (h1 : HGrows a b) (h2 : HGrows b c) : HGrows a c := by
  intro i n hn
  obtain ⟨n1, g1, g2⟩ := h1 i n hn
  obtain ⟨n2, g3, g4⟩ := h2 i n1 g1
  refine ⟨n2, g3, ?_⟩
  rcases g2 with rfl | g2
  · exact g4
  · rcases g4 with rfl | g4
    · exact Or.inr g2
    · exact Or.inr ⟨g2.1, g4.2⟩

theorem HGrows.add (h : Heap) (n : Node) : HGrows h (h ++ [n]) := by
  intro i m hm
  refine ⟨m, ?_, Or.inl rfl⟩
  rw [List.getElem?_append_left (List.getElem?_eq_some_iff.1 hm).1]
  exact hm

theorem HGrows.same {h h' : Heap} (hg : HGrows h h') {i : Id} {n : Node} (hi : h[i]? = some n) (hn : n.filled = false) :
    h'[i]? = some n := by
  obtain ⟨n', g1, g2⟩ := hg i n hi
  rcases g2 with rfl | g2
  · exact g1
  · rw [hn] at g2; cases g2.1

theorem HGrows.still {h h' : Heap} (hg : HGrows h h') {i : Id} {n : Node} (hi : h[i]? = some n) (hn : n.filled = true) :
    ∃ n', h'[i]? = some n' ∧ n'.filled = true := by
  obtain ⟨n', g1, g2⟩ := hg i n hi
  rcases g2 with rfl | g2
  · exact ⟨_, g1, hn⟩
  · exact ⟨_, g1, g2.2⟩

theorem Known.mono {m : Nat} {h h' : Heap} (hg : HGrows h h') {v : Val} (hv : Known m h v) : Known m h' v := by
  cases v with
  | obj i =>
    obtain ⟨n, h1, h2⟩ := hv
    obtain ⟨n', g1, g2⟩ := hg i n h1
    refine ⟨n', g1, ?_⟩
    rcases g2 with rfl | g2
    · exact h2
    · rintro p rfl
      cases g2.2
  | _ => exact hv

theorem ObjMade.mono {py : PyEnv} {m : Nat} {h h' : Heap} (hg : HGrows h h') {o : JSObj Val} (ho : ObjMade py m h o) : ObjMade py m h' o :=
  ⟨ho.inv, ho.len, fun e he => ⟨Known.mono hg (ho.values e he).1, (ho.values e he).2⟩, ho.names⟩

theorem isBuffer_mono {h h' : Heap} (hg : HGrows h h') {b : Val} (hb : isBuffer h b = true) :
    isBuffer h' b = true ∧ backingBytes h' b = backingBytes h b ∧ backingResizable h' b = backingResizable h b := by
  cases b with
  | obj i =>
    cases hi : h[i]? with
    | none => simp [isBuffer, hi] at hb
    | some n =>
      have hf : n.filled = false := by
        simp only [isBuffer, hi] at hb
        cases n <;> first | rfl | cases hb
      have := hg.same hi hf
      simp only [isBuffer, backingBytes, backingResizable, hi, this] at hb ⊢
      exact ⟨hb, by trivial⟩
  | _ => cases hb

theorem NodeMade.mono {py : PyEnv} {m : Nat} {h h' : Heap} (hg : HGrows h h') {n : Node} (hn : NodeMade py m h n) : NodeMade py m h' n := by
  cases n with
  | jsmap es => exact ⟨fun e he => ⟨Known.mono hg (hn.1 e he).1, Known.mono hg (hn.1 e he).2.1, (hn.1 e he).2.2⟩, hn.2⟩
  | jsset ms => exact ⟨fun e he => ⟨Known.mono hg (hn.1 e he).1, (hn.1 e he).2⟩, hn.2⟩
  | jsobj o => exact ObjMade.mono hg hn
  | jsarr o => exact ObjMade.mono hg hn
  | error name msg st cause => exact ⟨Known.mono hg hn.1, hn.2⟩
  | view b v =>
    obtain ⟨g1, g2, _⟩ := isBuffer_mono hg hn.1
    exact ⟨g1, fun mv hm => hn.2 mv (g2 ▸ hm)⟩
  | _ => exact hn

/-- The state of the decoder: everything in the log is known, every object is as it should be. -/
structure DS.Made (py : PyEnv) (m : Nat) (s : DS) : Prop where
  slots : ∀ x ∈ s.log.slots, ∃ v, x = .obj v ∧ Known m s.heap v
  nodes : ∀ (i : Id) (n : Node), s.heap[i]? = some n → NodeMade py m s.heap n

/-- From the good state `s`, the computation `x` ends, if it returns, in a good state with a result as `Q`
says. -/
def Mk {α : Type} (py : PyEnv) (d : Bytes) (s : DS) (x : RM α) (Q : α → DS → Prop) : Prop :=
  s.Made py d.length → ∀ a s', x d s = .ok (a, s') → s'.Made py d.length ∧ HGrows s.heap s'.heap ∧ Q a s'

variable {py : PyEnv} {d : Bytes} {s : DS}

theorem Mk.bind {α β : Type} {x : RM α} {f : α → RM β} {Q1 : α → DS → Prop} {Q : β → DS → Prop}
    (hx : Mk py d s x Q1) (hf : ∀ a s1, HGrows s.heap s1.heap → Q1 a s1 → Mk py d s1 (f a) Q) : Mk py d s (x >>= f) Q := by
  intro hs b s' h
  obtain ⟨a, s1, h1, h2⟩ := RM.bind_eq_ok h
  obtain ⟨g1, g2, g3⟩ := hx hs a s1 h1
  obtain ⟨k1, k2, k3⟩ := hf a s1 g2 g3 g1 b s' h2
  exact ⟨k1, g2.trans k2, k3⟩

theorem Mk.weaken {α : Type} {x : RM α} {Q Q' : α → DS → Prop} (hx : Mk py d s x Q) (h : ∀ a s', Q a s' → Q' a s') :
    Mk py d s x Q' := fun hs a s' hr => ⟨(hx hs a s' hr).1, (hx hs a s' hr).2.1, h _ _ (hx hs a s' hr).2.2⟩

theorem Mk.pure {α : Type} {a : α} {Q : α → DS → Prop} (h : Q a s) : Mk py d s (Pure.pure a) Q := by
  intro hs b s' hr
  cases hr
  exact ⟨hs, .refl _, h⟩

theorem Mk.fail {α : Type} {e : DErr} {Q : α → DS → Prop} : Mk py d s (RM.fail e : RM α) Q := by
  intro hs b s' hr
  cases hr

/-- A reader that only moves the position. -/
theorem Mk.lift {α : Type} {r : Rd α} : Mk py d s (RM.lift r) (fun a s' => s'.heap = s.heap ∧ ∃ p p', r d p = .ok (a, p')) := by
  intro hs a s' hr
  obtain ⟨q, h1, rfl⟩ := RM.lift_eq_ok hr
  exact ⟨⟨hs.slots, hs.nodes⟩, .refl _, rfl, _, _, h1⟩

theorem Mk.orRaise {α : Type} {x : Except PyExc α} : Mk py d s (orRaise x) (fun a s' => s' = s ∧ x = .ok a) := by
  cases x with
  | ok a => exact Mk.pure ⟨rfl, rfl⟩
  | error e => exact Mk.fail

theorem Mk.tick : Mk py d s tick (fun _ s' => s'.heap = s.heap) := by
  intro hs a s' hr
  cases hr
  exact ⟨⟨hs.slots, hs.nodes⟩, .refl _, rfl⟩

theorem Mk.alloc {n : Node} (hn : NodeMade py d.length s.heap n) :
    Mk py d s (alloc n) (fun i s' => s'.heap[i]? = some n ∧ s'.heap = s.heap ++ [n] ∧ s'.log = s.log) := by
  intro hs i s' hr
  cases hr
  have hg := HGrows.add s.heap n
  refine ⟨⟨fun x hx => ?_, fun i m hm => ?_⟩, hg, by simp, rfl, rfl⟩
  · obtain ⟨v, h1, h2⟩ := hs.slots x hx
    exact ⟨v, h1, Known.mono hg h2⟩
  · by_cases hl : i < s.heap.length
    · rw [List.getElem?_append_left hl] at hm
      exact NodeMade.mono hg (hs.nodes i m hm)
    · rw [List.getElem?_append_right (Nat.le_of_not_lt hl)] at hm
      have : m = n := by
        cases hk : i - s.heap.length with
        | zero => simp [hk] at hm; exact hm.symm
        | succ k => simp [hk] at hm
      subst this
      exact NodeMade.mono hg hn

theorem Mk.record {v : Val} (hv : Known d.length s.heap v) : Mk py d s (recordD v) (fun _ s' => s'.heap = s.heap) := by
  intro hs a s' hr
  cases hr
  refine ⟨⟨fun x hx => ?_, hs.nodes⟩, .refl _, rfl⟩
  simp only [ObjLog.record, List.mem_append, List.mem_singleton] at hx
  rcases hx with hx | rfl
  · exact hs.slots x hx
  · exact ⟨v, rfl, hv⟩

theorem Mk.setNode {i : Id} {n0 n : Node} (h0 : s.heap[i]? = some n0) (hf0 : n0.filled = true) (hf : n.filled = true)
    (hn : NodeMade py d.length s.heap n) : Mk py d s (setNode i n) (fun _ s' => ∃ m, s'.heap[i]? = some m ∧ m.filled = true) := by
  intro hs a s' hr
  cases hr
  have hlt := (List.getElem?_eq_some_iff.1 h0).1
  have hg : HGrows s.heap (s.heap.set i n) := by
    intro j m hm
    by_cases hij : i = j
    · subst hij
      rw [h0] at hm
      cases hm
      exact ⟨n, by simp [List.getElem?_set, hlt], Or.inr ⟨hf0, hf⟩⟩
    · exact ⟨m, by simp [List.getElem?_set, hij, hm], Or.inl rfl⟩
  refine ⟨⟨fun x hx => ?_, fun j m hm => ?_⟩, hg, n, by simp [List.getElem?_set, hlt], hf⟩
  · obtain ⟨v, h1, h2⟩ := hs.slots x hx
    exact ⟨v, h1, Known.mono hg h2⟩
  · simp only [List.getElem?_set, hlt, if_true] at hm
    split at hm
    · cases hm
      exact NodeMade.mono hg hn
    · exact NodeMade.mono hg (hs.nodes j m hm)

theorem Mk.lookup {n : Nat} : Mk py d s (lookupD n) (fun v s' => s'.heap = s.heap ∧ Known d.length s.heap v) := by
  intro hs a s' hr
  unfold lookupD at hr
  cases hg : s.log.getObject n with
  | error e => rw [hg] at hr; cases hr
  | ok x =>
    rw [hg] at hr
    have hx : x ∈ s.log.slots := by
      unfold ObjLog.getObject at hg
      split at hg
      · split at hg
        · rename_i h
          cases hg
          exact List.mem_of_getElem? h
        · cases hg
      · cases hg
    obtain ⟨v, rfl, hv⟩ := hs.slots x hx
    cases hr
    exact ⟨hs, .refl _, rfl, hv⟩

theorem Mk.loopFuel : Mk py d s loopFuel (fun _ s' => s' = s) := by
  intro hs a s' hr
  cases hr
  exact ⟨hs, .refl _, rfl⟩

theorem Mk.getVersion : Mk py d s getVersion (fun _ s' => s' = s) := by
  intro hs a s' hr
  cases hr
  exact ⟨hs, .refl _, rfl⟩

theorem Mk.getHeap : Mk py d s getHeap (fun h s' => s' = s ∧ h = s.heap) := by
  intro hs a s' hr
  cases hr
  exact ⟨hs, .refl _, rfl, rfl⟩

theorem Mk.checkCount {n m : Nat} : Mk py d s (checkCount n m) (fun _ s' => s' = s) := by
  unfold V8.checkCount
  split
  · exact Mk.fail
  · exact Mk.pure rfl

theorem Mk.assertStr {v : Val} : Mk py d s (assertStr v) (fun x s' => s' = s ∧ v = .str x) := by
  cases v <;> first | exact Mk.pure ⟨rfl, rfl⟩ | exact Mk.fail

/-- What is asked of the decoder for nested values. -/
def RecMade (py : PyEnv) (d : Bytes) (rec : Tag → RM Val) : Prop :=
  ∀ s t, Mk py d s (rec t) (fun v s' => Known d.length s'.heap v)

variable {rec : Tag → RM Val}

theorem Mk.decodeNext (hr : RecMade py d rec) : Mk py d s (decodeNext rec) (fun v s' => Known d.length s'.heap v) :=
  Mk.bind Mk.lift fun _ s1 _ _ => hr s1 _

theorem rd_bind_ok {α β : Type} {x : Rd α} {f : α → Rd β} {d : Bytes} {p : Nat} {b : β} {q : Nat}
    (h : (x >>= f) d p = .ok (b, q)) : ∃ a p1, x d p = .ok (a, p1) ∧ f a d p1 = .ok (b, q) := by
  change (match x d p with | .ok (a, q) => f a d q | .error e => .error e) = _ at h
  cases hx : x d p with
  | error e => rw [hx] at h; cases h
  | ok r => rw [hx] at h; exact ⟨r.1, r.2, rfl, h⟩

/-- The value of a wrapper. -/
theorem PlainText.of_all {s : Str} (h : s.all isScalar = true) : PlainText s := by
  rw [List.all_eq_true] at h
  exact fun c hc => isScalar_iff.1 (h c hc)

theorem utf8_plain {bs : Bytes} {s : Str} (h : utf8Decode bs = some s) : PlainText s :=
  PlainText.of_all ((utf8Encode_isSome s ▸ by rw [utf8Encode_decode h]; rfl))

theorem utf16_plain {bs : Bytes} {s : Str} (h : utf16Decode bs = some s) : PlainText s :=
  PlainText.of_all ((utf16Encode_isSome s ▸ by rw [utf16Encode_decode h]; rfl))

theorem readUtf8_plain {d : Bytes} {q q' : Nat} {s : Str} (h : readStringUtf8 d q = .ok (s, q')) : PlainText s := by
  obtain ⟨_, _, _, h⟩ := rd_bind_ok h
  obtain ⟨bs, _, _, h⟩ := rd_bind_ok h
  cases hb : utf8Decode bs with
  | none => rw [hb] at h; cases h
  | some t => rw [hb] at h; cases h; exact utf8_plain hb

theorem readTwoByte_plain {d : Bytes} {q q' : Nat} {s : Str} (h : readStringTwoByte d q = .ok (s, q')) : PlainText s := by
  obtain ⟨_, _, _, h⟩ := rd_bind_ok h
  obtain ⟨bs, _, _, h⟩ := rd_bind_ok h
  cases hb : utf16Decode bs with
  | none => rw [hb] at h; cases h
  | some t => rw [hb] at h; cases h; exact utf16_plain hb

theorem readOneByte_plain {d : Bytes} {q q' : Nat} {s : Str} (h : readStringOneByte d q = .ok (s, q')) : PlainText s := by
  obtain ⟨_, _, _, h⟩ := rd_bind_ok h
  obtain ⟨_, _, _, h⟩ := rd_bind_ok h
  obtain ⟨bs, _, _, h⟩ := rd_bind_ok h
  cases h
  intro c hc
  obtain ⟨b, _, rfl⟩ := List.mem_map.1 hc
  have := b.toNat_lt
  omega

theorem readBigint_size {d : Bytes} {q q' : Nat} {n : Int} (h : readBigint d q = .ok (n, q')) :
    n.natAbs < 2 ^ 32 ∨ n.natAbs < 2 ^ (8 * d.length) := by
  obtain ⟨_, _, _, h⟩ := rd_bind_ok h
  obtain ⟨bs, _, hb, h⟩ := rd_bind_ok h
  obtain ⟨_, _, _, hb⟩ := rd_bind_ok hb
  cases hb
  right
  rw [show (2 : Nat) ^ (8 * d.length) = 256 ^ d.length by rw [Nat.pow_mul]]
  have key : ∀ l : Bytes, l.length ≤ d.length → fromLE l < 256 ^ d.length := fun l hl =>
    Nat.lt_of_lt_of_le (fromLE_lt l) (Nat.pow_le_pow_right (by omega) hl)
  split at h <;> cases h <;> simp only [Int.natAbs_neg, Int.natAbs_natCast] <;> apply key <;> simp <;> omega

theorem readInt32_size {d : Bytes} {q q' : Nat} {n : Int} (h : readInt32 d q = .ok (n, q')) :
    n.natAbs < 2 ^ 32 ∨ n.natAbs < 2 ^ (8 * d.length) := by
  obtain ⟨a, _, _, h⟩ := rd_bind_ok h
  split at h
  · rename_i hc
    cases h
    simp only [inInt32, Bool.and_eq_true, decide_eq_true_eq] at hc
    omega
  · cases h

theorem known_prim {t : Tag} {d : Bytes} {q q' : Nat} {h : Heap} {p : PrimObj} (hp : readPrimObj t d q = .ok (p, q')) :
    Known d.length h p.value := by
  cases t <;> first
    | (cases hp; done)
    | (cases hp; trivial)
    | (change (readDouble >>= fun x => (Pure.pure (PrimObj.float x) : Rd PrimObj)) d q = _ at hp
       obtain ⟨_, _, _, hp⟩ := rd_bind_ok hp
       cases hp; trivial)
    | (change (readBigint >>= fun x => (Pure.pure (PrimObj.bigint x) : Rd PrimObj)) d q = _ at hp
       obtain ⟨_, _, h0, hp⟩ := rd_bind_ok hp
       cases hp; exact readBigint_size h0)
    | (change (readStringUtf8 >>= fun x => (Pure.pure (PrimObj.str x) : Rd PrimObj)) d q = _ at hp
       obtain ⟨_, _, h0, hp⟩ := rd_bind_ok hp
       cases hp; exact readUtf8_plain h0)

theorem readPrimObj_made {t : Tag} {d : Bytes} {q q' : Nat} {p : PrimObj} (h : readPrimObj t d q = .ok (p, q')) (n : Int) :
    p ≠ .safeInt n := by
  rintro rfl
  cases t <;> first
    | (cases h; done)
    | (change (readDouble >>= fun x => (Pure.pure (PrimObj.float x) : Rd PrimObj)) d q = _ at h
       obtain ⟨_, _, _, h⟩ := rd_bind_ok h
       cases h)
    | (change (readBigint >>= fun x => (Pure.pure (PrimObj.bigint x) : Rd PrimObj)) d q = _ at h
       obtain ⟨_, _, _, h⟩ := rd_bind_ok h
       cases h)
    | (change (readStringUtf8 >>= fun x => (Pure.pure (PrimObj.str x) : Rd PrimObj)) d q = _ at h
       obtain ⟨_, _, _, h⟩ := rd_bind_ok h
       cases h)

theorem Mk.primObj (t : Tag) : Mk py d s (decodePrimObj t) (fun v s' => Known d.length s'.heap v) := by
  refine Mk.bind Mk.lift fun p s1 _ h0 => ?_
  intro hs v s' hr
  obtain ⟨_, q, q', h0⟩ := h0
  replace hr : (V8.alloc (.primObj p) >>= fun i => recordD (.obj i) >>= fun n => replaceD n p.value >>= fun _ =>
    (Pure.pure p.value : RM Val)) d s1 = .ok (v, s') := hr
  obtain ⟨i, s2, h1, hr⟩ := RM.bind_eq_ok hr
  obtain ⟨g1, g2, g3, g4, g5⟩ := Mk.alloc (n := .primObj p) (d := d) (readPrimObj_made h0) hs i s2 h1
  obtain ⟨n, s3, h2, hr⟩ := RM.bind_eq_ok hr
  cases h2
  obtain ⟨_, s4, h3, hr⟩ := RM.bind_eq_ok hr
  cases hr
  have hrep : (s2.log.record (Val.obj i)).1.replace (s2.log.record (Val.obj i)).2 (.obj p.value)
      = .ok ⟨(s2.log.record (Val.obj i)).1.ids, s2.log.slots ++ [.obj p.value]⟩ := by
    simp only [ObjLog.record, ObjLog.replace]
    simp
  unfold replaceD at h3
  simp only [hrep] at h3
  cases h3
  refine ⟨⟨fun x hx => ?_, g1.nodes⟩, g2, known_prim h0⟩
  simp only [List.mem_append, List.mem_singleton] at hx
  rcases hx with hx | rfl
  · exact g1.slots x hx
  · exact ⟨_, rfl, known_prim h0⟩

theorem known_new {m : Nat} {h : Heap} {i : Id} {n : Node} (hi : h[i]? = some n) (hn : ∀ p, n ≠ .primObj p) : Known m h (.obj i) := ⟨n, hi, hn⟩

theorem flagMember_regexp {n : Nat} (h : flagMember 0b111111111 n = .ok n) :
    n % 2 ^ 9 = 0 ∨ n - n % 2 ^ 9 < 10 ^ 4300 := by
  have hk : n &&& 0b111111111 = n % 2 ^ 9 := Nat.and_two_pow_sub_one_eq_mod n 9
  unfold flagMember at h
  rw [hk] at h
  by_cases h0 : n % 2 ^ 9 = 0
  · exact .inl h0
  · right
    by_cases h1 : 10 ^ maxStrDigits ≤ n - n % 2 ^ 9
    · rw [if_pos ⟨h0, h1⟩] at h
      cases h
    · unfold maxStrDigits at h1
      exact Nat.lt_of_not_le h1

theorem regexp_flagMember {n : Nat} (h : n % 2 ^ 9 = 0 ∨ n - n % 2 ^ 9 < 10 ^ 4300) :
    flagMember 0b111111111 n = .ok n := by
  have hk : n &&& 0b111111111 = n % 2 ^ 9 := Nat.and_two_pow_sub_one_eq_mod n 9
  unfold flagMember maxStrDigits
  rw [hk]
  refine if_neg fun hc => ?_
  rcases h with h | h
  · exact hc.1 h
  · exact Nat.not_lt.mpr hc.2 h

theorem Mk.regexp (hr : RecMade py d rec) : Mk py d s (decodeRegExp rec) (fun v s' => Known d.length s'.heap v) := by
  refine Mk.bind Mk.lift fun t s1 _ _ => Mk.bind (hr s1 t) fun v s2 _ hv => Mk.bind Mk.assertStr fun x s3 _ hx =>
    Mk.bind Mk.lift fun fl s4 _ _ => Mk.bind Mk.orRaise fun r s5 _ h5 => ?_
  obtain ⟨rfl, h5⟩ := h5
  obtain ⟨_, rfl⟩ := hx
  have hm : NodeMade py d.length s5.heap (.regexp r) := by
    unfold mkRegExp at h5
    by_cases hf : flagMember 0b111111111 fl ≠ .ok fl
    · rw [if_pos hf] at h5; cases h5
    rw [if_neg hf] at h5
    split at h5
    · cases h5
    · rename_i hc
      cases h5
      refine ⟨?_, ?_, ?_, flagMember_regexp (Decidable.of_not_not hf)⟩
      · split
        · exact (by decide : str "(?:)" ≠ [])
        · assumption
      · split
        · exact PlainText.of_all (by decide +kernel : (str "(?:)").all isScalar = true)
        · exact (show PlainText x from hv)
      · simpa [flagUnicode, flagUnicodeSets] using hc
  refine Mk.bind (Mk.alloc hm) fun i s6 _ h6 => ?_
  have hk := known_new (m := d.length) h6.1 (by rintro p ⟨⟩)
  exact Mk.bind (Mk.record hk) fun _ s7 _ h7 => Mk.pure (by rw [h7]; exact hk)

theorem Mk.errText (hr : RecMade py d rec) (want etag : ErrTag) : Mk py d s (readErrText rec want etag) (fun r _ => ∀ x, r.1 = some x → PlainText x) := by
  unfold readErrText
  split
  · exact Mk.bind Mk.lift fun t s1 _ _ => Mk.bind (hr s1 t) fun v s2 _ hv => Mk.bind Mk.lift fun _ s3 _ _ =>
      Mk.bind Mk.assertStr fun _ s4 _ hx => Mk.pure (by rintro x ⟨⟩; obtain ⟨_, rfl⟩ := hx; exact hv)
  · exact Mk.pure (by rintro x ⟨⟩)

theorem Mk.errCause (hr : RecMade py d rec) (etag : ErrTag) : Mk py d s (readErrCause rec etag) (fun r s' => Known d.length s'.heap r.1) := by
  unfold readErrCause
  split
  · exact Mk.bind (Mk.decodeNext hr) fun v s1 _ h1 => Mk.bind Mk.lift fun _ s2 hg _ => Mk.pure (Known.mono hg h1)
  · exact Mk.pure trivial

theorem Mk.lateStack (hr : RecMade py d rec) (st : Option Str) (etag : ErrTag) (hst : ∀ x, st = some x → PlainText x) :
    Mk py d s (readLateStack rec st etag) (fun r _ => ∀ x, r.1 = some x → PlainText x) := by
  unfold readLateStack
  split
  · exact Mk.errText hr _ _
  · exact Mk.pure hst

theorem errName_known (n : ErrName) : ∃ k ∈ errorNames, n.value = str k := by cases n <;> decide

theorem getD_plain {m : Option Str} (h : ∀ x, m = some x → PlainText x) : ∀ x, some (m.getD []) = some x → PlainText x := by
  rintro x ⟨⟩
  cases m with
  | none => intro c hc; cases hc
  | some x => exact h x rfl

theorem Mk.error (hr : RecMade py d rec) : Mk py d s (decodeError rec) (fun v s' => Known d.length s'.heap v) := by
  refine Mk.bind Mk.lift fun et s1 _ _ => Mk.bind Mk.lift fun et2 s2 _ _ => Mk.bind (Mk.errText hr _ _) fun m s3 _ hm =>
    Mk.bind (Mk.errText hr _ _) fun st s4 _ hst => Mk.bind (Mk.alloc ⟨trivial, by simp, errName_known _, getD_plain hm, hst⟩) fun i s5 _ h5 =>
    Mk.bind (Mk.record (known_new h5.1 (by rintro p ⟨⟩))) fun _ s6 _ h6 => Mk.bind (Mk.errCause hr _) fun c s7 g7 h7 =>
    Mk.bind (Mk.lateStack hr _ _ hst) fun st' s8 g8 hst' => Mk.bind (Q1 := fun _ s' => s' = s8) ?_ fun _ s9 _ h9 => ?_
  · unfold checkErrEnd
    split
    · exact Mk.fail
    · exact Mk.pure rfl
  · subst h9
    obtain ⟨n', k1, k2⟩ := HGrows.still (g7.trans g8) (h6 ▸ h5.1) rfl
    refine Mk.bind (Mk.setNode k1 k2 rfl ⟨Known.mono g8 h7, by simp, errName_known _, getD_plain hm, hst'⟩) fun _ s10 _ h10 => ?_
    obtain ⟨m, e1, e2⟩ := h10
    exact Mk.pure (known_new e1 (by rintro p rfl; cases e2))

theorem Mk.date (env : DEnv) : Mk env.py d s (decodeDate env) (fun v s' => Known d.length s'.heap v) := by
  refine Mk.bind Mk.lift fun ms s1 _ _ => Mk.bind Mk.orRaise fun x s2 _ h2 => ?_
  refine Mk.bind (Mk.alloc ⟨ms, h2.2⟩) fun i s3 _ h3 => ?_
  have hk := known_new (m := d.length) h3.1 (by rintro p ⟨⟩)
  exact Mk.bind (Mk.record hk) fun _ s7 _ h7 => Mk.pure (by rw [h7]; exact hk)

/-! ## Map and Set -/

/-- The entries collected so far. -/
def MapMade (size : Nat) (h : Heap) (m : JSMap Val) : Prop := m.Inv ∧ ∀ e ∈ m, Known size h e.2.1 ∧ Known size h e.2.2 ∧ ¬ TooBig e.2.1

theorem Mk.putEntry {m : JSMap Val} {k v : Val} (hm : MapMade d.length s.heap m) (hk : Known d.length s.heap k) (hv : Known d.length s.heap v) :
    Mk py d s (putEntry m k v) (fun m' s' => s' = s ∧ MapMade d.length s.heap m') := by
  unfold V8.putEntry JSMap.setitem
  cases hz : sameValueZero k with
  | error e => exact Mk.fail
  | ok key =>
    refine Mk.pure ⟨rfl, KeyedInv.set hm.1 (k, v) key hz, fun e he => ?_⟩
    rcases mem_set_cases m key (k, v) e he with rfl | he
    · refine ⟨hk, hv, fun hb => ?_⟩
      rw [(svz_error_iff k _).2 ⟨hb, rfl⟩] at hz
      cases hz
    · exact hm.2 e he

theorem Mk.mapLoop (hr : RecMade py d rec) (f : Nat) (m : JSMap Val) (c : Nat) (hm : MapMade d.length s.heap m) :
    Mk py d s (mapLoop rec f m c) (fun r s' => MapMade d.length s'.heap r.1) := by
  induction f generalizing s m c with
  | zero => exact Mk.fail
  | succ f ih =>
    refine Mk.bind Mk.lift fun t s1 g1 _ => ?_
    have hm1 : ∀ {h : Heap}, HGrows s.heap h → MapMade d.length h m := fun hg =>
      ⟨hm.1, fun e he => ⟨Known.mono hg (hm.2 e he).1, Known.mono hg (hm.2 e he).2.1, (hm.2 e he).2.2⟩⟩
    split
    · exact Mk.pure (hm1 g1)
    · refine Mk.bind (hr s1 t) fun k s2 g2 hk => Mk.bind (Mk.decodeNext hr) fun v s3 g3 hv => ?_
      refine Mk.bind (Mk.putEntry (hm1 (g1.trans (g2.trans g3))) (Known.mono g3 hk) hv) fun m' s4 _ h4 => ?_
      obtain ⟨rfl, h4⟩ := h4
      exact ih _ _ h4

theorem Mk.putMember {m : JSSet} {v : Val} (hm : m.Inv ∧ ∀ e ∈ m, Known d.length s.heap e.2 ∧ ¬ TooBig e.2) (hv : Known d.length s.heap v) :
    Mk py d s (putMember m v) (fun m' s' => s' = s ∧ m'.Inv ∧ ∀ e ∈ m', Known d.length s.heap e.2 ∧ ¬ TooBig e.2) := by
  unfold V8.putMember JSSet.add
  cases hz : sameValueZero v with
  | error e => exact Mk.fail
  | ok key =>
    refine Mk.pure ⟨rfl, KeyedInv.set hm.1 v key hz, fun e he => ?_⟩
    rcases mem_set_cases m key v e he with rfl | he
    · refine ⟨hv, fun hb => ?_⟩
      rw [(svz_error_iff v _).2 ⟨hb, rfl⟩] at hz
      cases hz
    · exact hm.2 e he

theorem Mk.setLoop (hr : RecMade py d rec) (f : Nat) (m : JSSet) (c : Nat)
    (hm : m.Inv ∧ ∀ e ∈ m, Known d.length s.heap e.2 ∧ ¬ TooBig e.2) :
    Mk py d s (setLoop rec f m c) (fun r s' => r.1.Inv ∧ ∀ e ∈ r.1, Known d.length s'.heap e.2 ∧ ¬ TooBig e.2) := by
  induction f generalizing s m c with
  | zero => exact Mk.fail
  | succ f ih =>
    refine Mk.bind Mk.lift fun t s1 g1 _ => ?_
    split
    · exact Mk.pure ⟨hm.1, fun e he => ⟨Known.mono g1 (hm.2 e he).1, (hm.2 e he).2⟩⟩
    · refine Mk.bind (hr s1 t) fun v s2 g2 hv => ?_
      refine Mk.bind (Mk.putMember ⟨hm.1, fun e he => ⟨Known.mono (g1.trans g2) (hm.2 e he).1, (hm.2 e he).2⟩⟩ hv)
        fun m' s4 _ h4 => ?_
      obtain ⟨rfl, h4⟩ := h4
      exact ih _ _ h4

theorem Mk.jsmap (hr : RecMade py d rec) : Mk py d s (decodeJSMap rec) (fun v s' => Known d.length s'.heap v) := by
  refine Mk.bind (Mk.alloc (n := .jsmap []) ⟨by simp, by simp⟩) fun i s1 _ h1 => ?_
  refine Mk.bind (Mk.record (known_new h1.1 (by rintro p ⟨⟩))) fun _ s2 _ h2 => Mk.bind Mk.loopFuel fun f s3 _ h3 => ?_
  subst h3
  refine Mk.bind (Mk.mapLoop hr f [] 0 ⟨JSMap.inv_empty, by simp⟩) fun r s4 g4 h4 => ?_
  refine Mk.bind Mk.lift fun ex s5 g5 _ => Mk.bind Mk.checkCount fun _ s6 _ h6 => ?_
  subst h6
  obtain ⟨n', k1, k2⟩ := HGrows.still (g4.trans g5) (h2 ▸ h1.1) rfl
  refine Mk.bind (Mk.setNode (n := .jsmap r.1.items) k1 k2 rfl ⟨fun e he => ?_, KeyedInv.pairwise h4.1⟩) fun _ s10 _ h10 => ?_
  · obtain ⟨x, hx, rfl⟩ := List.mem_map.1 he
    exact ⟨Known.mono g5 (h4.2 x hx).1, Known.mono g5 (h4.2 x hx).2.1, (h4.2 x hx).2.2⟩
  · obtain ⟨m, e1, e2⟩ := h10
    exact Mk.pure (known_new e1 (by rintro p rfl; cases e2))

theorem Mk.jsset (hr : RecMade py d rec) : Mk py d s (decodeJSSet rec) (fun v s' => Known d.length s'.heap v) := by
  refine Mk.bind (Mk.alloc (n := .jsset []) ⟨by simp, by simp⟩) fun i s1 _ h1 => ?_
  refine Mk.bind (Mk.record (known_new h1.1 (by rintro p ⟨⟩))) fun _ s2 _ h2 => Mk.bind Mk.loopFuel fun f s3 _ h3 => ?_
  subst h3
  refine Mk.bind (Mk.setLoop hr f [] 0 ⟨JSSet.inv_empty, by simp⟩) fun r s4 g4 h4 => ?_
  refine Mk.bind Mk.lift fun ex s5 g5 _ => Mk.bind Mk.checkCount fun _ s6 _ h6 => ?_
  subst h6
  obtain ⟨n', k1, k2⟩ := HGrows.still (g4.trans g5) (h2 ▸ h1.1) rfl
  refine Mk.bind (Mk.setNode (n := .jsset r.1.members) k1 k2 rfl ⟨fun e he => ?_, KeyedInv.pairwise h4.1⟩) fun _ s10 _ h10 => ?_
  · obtain ⟨x, hx, rfl⟩ := List.mem_map.1 he
    exact ⟨Known.mono g5 (h4.2 x hx).1, (h4.2 x hx).2⟩
  · obtain ⟨m, e1, e2⟩ := h10
    exact Mk.pure (known_new e1 (by rintro p rfl; cases e2))

/-! ## Objects and arrays -/

theorem JSObj.mem_items {α : Type} {o : JSObj α} (h : o.Inv) (e : PKey × α) : e ∈ o.items ↔ o.lookup e.1 = some e.2 := by
  rw [JSObj.items_eq h]
  obtain ⟨k, v⟩ := e
  cases k with
  | idx k =>
    simp only [List.mem_append, List.mem_map, Prod.mk.injEq, PKey.idx.injEq, reduceCtorEq, false_and, and_false, exists_false,
      or_false, JSObj.lookup]
    rw [← mem_itemsOf]
    constructor
    · rintro ⟨⟨a, b⟩, h1, rfl, rfl⟩; exact h1
    · intro h1; exact ⟨_, h1, rfl, rfl⟩
  | name t =>
    simp only [List.mem_append, List.mem_map, Prod.mk.injEq, PKey.name.injEq, reduceCtorEq, false_and, and_false, exists_false,
      false_or, JSObj.lookup]
    constructor
    · rintro ⟨⟨a, b⟩, h1, rfl, rfl⟩; exact Dict.get_of_mem _ _ _ h.names h1
    · intro h1; exact ⟨_, Dict.mem_of_get _ _ _ h1, rfl, rfl⟩

theorem normaliseInt_name {fs : F64 → Str} {n : Int} {t : Str} (h : normaliseInt n = .ok (.name t)) :
    normaliseKey fs (.str t) = .ok (.name t) := by
  have h' := h
  unfold normaliseInt at h'
  split at h'
  · cases h'
  · cases hp : pyIntStr n with
    | error e => rw [hp] at h'; cases h'
    | ok s =>
      rw [hp] at h'
      cases h'
      rw [normaliseKey_intStr fs n _ hp, h]

/-- A name that a key is normalised to is its own normal form. -/
theorem normaliseKey_name {py : PyEnv} (hpy : FloatNames py) {key : RawKey} {t : Str}
    (h : normaliseKey py.floatStr key = .ok (.name t)) : normaliseKey py.floatStr (.str t) = .ok (.name t) := by
  cases key with
  | int n => exact normaliseInt_name h
  | float x =>
    simp only [normaliseKey] at h
    cases hx : fInt? x with
    | none =>
      rw [hx] at h
      cases h
      exact (hpy x hx).1
    | some n =>
      rw [hx] at h
      exact normaliseInt_name h
  | str s =>
    have h' := h
    simp only [normaliseKey] at h
    cases hc : canonicalNumericIndexString s with
    | error e => rw [hc] at h; cases h
    | ok o =>
      rw [hc] at h
      cases o with
      | none => cases h; exact h'
      | some n => exact normaliseInt_name h

theorem digits_plain (f : Nat) : ∀ n, PlainText (decDigitsRev f n) := by
  induction f with
  | zero => intro n c hc; cases hc
  | succ f ih =>
    intro n
    simp only [decDigitsRev]
    split
    · intro c hc
      rw [List.mem_singleton.1 hc]
      omega
    · intro c hc
      rcases List.mem_cons.1 hc with rfl | hc
      · omega
      · exact ih _ c hc

theorem intStr_plain {n : Int} {t : Str} (h : pyIntStr n = .ok t) : PlainText t := by
  have hd : PlainText (decDigits n.natAbs) := fun c hc => digits_plain _ _ c (List.mem_reverse.1 hc)
  unfold pyIntStr at h
  simp only at h
  split at h
  · cases h
  · cases h
    split
    · intro c hc
      rcases List.mem_cons.1 hc with rfl | hc
      · omega
      · exact hd c hc
    · exact hd

theorem normaliseInt_plain {n : Int} {t : Str} (h : normaliseInt n = .ok (.name t)) : PlainText t := by
  unfold normaliseInt at h
  split at h
  · cases h
  · cases hp : pyIntStr n with
    | error e => rw [hp] at h; cases h
    | ok s =>
      rw [hp] at h
      cases h
      exact intStr_plain hp

/-- The name that a key is normalised to has no surrogates. -/
theorem normaliseKey_plain {py : PyEnv} (hpy : FloatNames py) {key : RawKey} (hk : ∀ s, key = .str s → PlainText s) {t : Str}
    (h : normaliseKey py.floatStr key = .ok (.name t)) : PlainText t := by
  cases key with
  | int n => exact normaliseInt_plain h
  | float x =>
    simp only [normaliseKey] at h
    cases hx : fInt? x with
    | none =>
      rw [hx] at h
      cases h
      exact (hpy x hx).2
    | some n =>
      rw [hx] at h
      exact normaliseInt_plain h
  | str s =>
    simp only [normaliseKey] at h
    cases hc : canonicalNumericIndexString s with
    | error e => rw [hc] at h; cases h
    | ok o =>
      rw [hc] at h
      cases o with
      | none => cases h; exact hk _ rfl
      | some n => exact normaliseInt_plain h

theorem ObjMade.empty {h : Heap} : ObjMade py d.length h JSObj.empty := by
  refine ⟨JSObj.empty_inv, by simp [JSObj.empty, Arr.abs], ?_, by simp [JSObj.empty]⟩
  intro e he
  rw [JSObj.mem_items JSObj.empty_inv] at he
  obtain ⟨k, v⟩ := e
  cases k <;> simp [JSObj.lookup, JSObj.empty, Arr.abs, Dict.get] at he

theorem ObjMade.set (hpy : FloatNames py) {h : Heap} {o : JSObj Val} (ho : ObjMade py d.length h o) {key : RawKey} {k : PKey} {v : Val}
    (hkey : ∀ s, key = .str s → PlainText s) (hk : normaliseKey py.floatStr key = .ok k) (hv : Known d.length h v) : ObjMade py d.length h (o.setitem k v.toElem).1 := by
  have hval := normaliseKey_valid hk
  obtain ⟨g1, g2, g3, g4, _⟩ := JSObj.setitem_spec ho.inv k hval v.toElem
  refine ⟨g1, ?_, ?_, ?_⟩
  · rw [g4]
    have := ho.len
    cases k with
    | name t => exact this
    | idx n =>
      have hn : n < 2 ^ 32 - 1 := hval
      simp only [List.length_set, List.length_append, List.length_replicate]
      omega
  · intro e he
    rw [JSObj.mem_items g1, g2] at he
    split at he
    · cases v with
      | hole => simp [Val.toElem] at he
      | _ =>
        simp only [Val.toElem, Option.some.injEq] at he
        rw [← he]
        exact ⟨hv, by simp⟩
    · exact ho.values e ((JSObj.mem_items ho.inv e).2 he)
  · intro e he
    have hm : e.1 ∈ (o.setitem k v.toElem).1.props.keys := List.mem_map.2 ⟨e, he, rfl⟩
    rw [g3] at hm
    have old : ∀ t, t ∈ o.props.keys → normaliseKey py.floatStr (.str t) = .ok (.name t) ∧ PlainText t := by
      intro t ht
      obtain ⟨x, hx, rfl⟩ := List.mem_map.1 ht
      exact ho.names x hx
    cases k with
    | idx n => exact old _ hm
    | name t =>
      cases hte : v.toElem with
      | none =>
        rw [hte] at hm
        exact old _ (List.mem_filter.1 hm).1
      | some w =>
        rw [hte] at hm
        simp only at hm
        split at hm
        · exact old _ hm
        · rcases List.mem_append.1 hm with hm | hm
          · exact old _ hm
          · rw [List.mem_singleton.1 hm]
            exact ⟨normaliseKey_name hpy hk, normaliseKey_plain hpy hkey hk⟩

theorem Mk.putProp (hpy : FloatNames py) {o : JSObj Val} (ho : ObjMade py d.length s.heap o) (key : RawKey)
    (hkey : ∀ s, key = .str s → PlainText s) {v : Val}
    (hv : Known d.length s.heap v) : Mk py d s (putProp py o key v) (fun o' s' => s' = s ∧ ObjMade py d.length s.heap o') := by
  unfold V8.putProp
  cases hk : normaliseKey py.floatStr key with
  | error e => exact Mk.fail
  | ok k =>
    have := ObjMade.set hpy ho hkey hk hv
    simp only
    cases hset : o.setitem k v.toElem with
    | mk o' e =>
      rw [hset] at this
      cases e with
      | none => exact Mk.pure ⟨rfl, this⟩
      | some e => exact Mk.fail

variable {env : DEnv}

theorem Mk.checkKey {v : Val} {h : Heap} (hv : Known d.length h v) :
    Mk py d s (checkKey v) (fun k s' => s' = s ∧ ∀ x, k = .str x → PlainText x) := by
  cases v <;> first | exact Mk.pure ⟨rfl, fun _ h => by cases h; exact hv⟩ | exact Mk.pure ⟨rfl, fun _ h => by cases h⟩ | exact Mk.fail

theorem Mk.propsLoop (hpy : FloatNames env.py) (hr : RecMade env.py d rec) (endTag : Tag) (f : Nat) (o : JSObj Val) (c : Nat)
    (ho : ObjMade env.py d.length s.heap o) :
    Mk env.py d s (propsLoop env rec endTag f o c) (fun r s' => ObjMade env.py d.length s'.heap r.1) := by
  induction f generalizing s o c with
  | zero => exact Mk.fail
  | succ f ih =>
    refine Mk.bind Mk.lift fun t s1 g1 _ => ?_
    split
    · refine Mk.bind (hr s1 t) fun k s2 g2 hk => Mk.bind (Mk.checkKey hk) fun key s3 _ h3 => ?_
      obtain ⟨rfl, hkey⟩ := h3
      refine Mk.bind (Mk.decodeNext hr) fun v s4 g4 hv => ?_
      refine Mk.bind (Mk.putProp hpy (ObjMade.mono (g1.trans (g2.trans g4)) ho) key hkey hv) fun o' s5 _ h5 => ?_
      obtain ⟨rfl, h5⟩ := h5
      exact ih _ _ h5
    · split
      · exact Mk.pure (ObjMade.mono g1 ho)
      · exact Mk.fail

theorem Mk.readProps (hpy : FloatNames env.py) (hr : RecMade env.py d rec) (endTag : Tag) (o : JSObj Val)
    (ho : ObjMade env.py d.length s.heap o) : Mk env.py d s (readProps env rec endTag o) (fun o' s' => ObjMade env.py d.length s'.heap o') := by
  refine Mk.bind Mk.loopFuel fun f s1 _ h1 => ?_
  subst h1
  refine Mk.bind (Mk.propsLoop hpy hr endTag f o 0 ho) fun r s2 _ h2 => Mk.bind Mk.lift fun n s3 g3 _ =>
    Mk.bind Mk.checkCount fun _ s4 _ h4 => ?_
  subst h4
  exact Mk.pure (ObjMade.mono g3 h2)

/-- The last step of reading a container. -/
theorem Mk.finish {i : Id} {n0 n : Node} {s0 : DS} (h0 : s0.heap[i]? = some n0) (hf0 : n0.filled = true) (hg : HGrows s0.heap s.heap)
    (hf : n.filled = true) (hn : NodeMade py d.length s.heap n) :
    Mk py d s (V8.setNode i n >>= fun _ => (Pure.pure (.obj i) : RM Val)) (fun v s' => Known d.length s'.heap v) := by
  obtain ⟨n', k1, k2⟩ := hg.still h0 hf0
  refine Mk.bind (Mk.setNode k1 k2 hf hn) fun _ s10 _ h10 => ?_
  obtain ⟨m, e1, e2⟩ := h10
  exact Mk.pure (known_new e1 (by rintro p rfl; cases e2))

theorem Mk.jsobject (hpy : FloatNames env.py) (hr : RecMade env.py d rec) :
    Mk env.py d s (decodeJSObject env rec) (fun v s' => Known d.length s'.heap v) := by
  refine Mk.bind (Mk.alloc (n := .jsobj JSObj.empty) ObjMade.empty) fun i s1 _ h1 => ?_
  refine Mk.bind (Mk.record (known_new h1.1 (by rintro p ⟨⟩))) fun _ s2 _ h2 => ?_
  refine Mk.bind (Mk.readProps hpy hr _ _ ObjMade.empty) fun o s3 g3 h3 => ?_
  exact Mk.finish (s0 := s2) (h2 ▸ h1.1) rfl g3 rfl h3

theorem Mk.elemsLoop (hpy : FloatNames env.py) (hr : RecMade env.py d rec) (n i : Nat) (o : JSObj Val)
    (ho : ObjMade env.py d.length s.heap o) : Mk env.py d s (elemsLoop env rec n i o) (fun o' s' => ObjMade env.py d.length s'.heap o') := by
  induction n generalizing s i o with
  | zero => exact Mk.pure ho
  | succ n ih =>
    refine Mk.bind (Mk.decodeNext hr) fun v s1 g1 hv => ?_
    refine Mk.bind (Mk.putProp hpy (ObjMade.mono g1 ho) _ (by rintro x ⟨⟩) hv) fun o' s2 _ h2 => ?_
    obtain ⟨rfl, h2⟩ := h2
    exact ih _ _ h2

theorem Mk.dense (hpy : FloatNames env.py) (hr : RecMade env.py d rec) :
    Mk env.py d s (decodeDenseArray env rec) (fun v s' => Known d.length s'.heap v) := by
  refine Mk.bind (Mk.alloc (n := .jsarr JSObj.empty) ObjMade.empty) fun i s1 _ h1 => ?_
  refine Mk.bind (Mk.record (known_new h1.1 (by rintro p ⟨⟩))) fun _ s2 _ h2 => Mk.bind Mk.lift fun n s3 g3 _ => ?_
  refine Mk.bind (Mk.elemsLoop hpy hr n 0 _ ObjMade.empty) fun o s4 g4 h4 => ?_
  refine Mk.bind (Mk.readProps hpy hr _ o h4) fun o s5 g5 h5 => Mk.bind Mk.lift fun m s6 g6 _ =>
    Mk.bind Mk.checkCount fun _ s7 _ h7 => ?_
  subst h7
  exact Mk.finish (s0 := s2) (h2 ▸ h1.1) rfl (g3.trans (g4.trans (g5.trans g6))) rfl (ObjMade.mono g6 h5)

theorem Mk.resizeTo (hpy : FloatNames env.py) (n : Nat) (o : JSObj Val) (ho : ObjMade env.py d.length s.heap o) :
    Mk env.py d s (resizeTo env n o) (fun o' s' => s' = s ∧ ObjMade env.py d.length s.heap o') := by
  unfold V8.resizeTo
  split
  · exact Mk.putProp hpy ho _ (by rintro x ⟨⟩) trivial
  · exact Mk.pure ⟨rfl, ho⟩

theorem Mk.sparse (hpy : FloatNames env.py) (hr : RecMade env.py d rec) :
    Mk env.py d s (decodeSparseArray env rec) (fun v s' => Known d.length s'.heap v) := by
  refine Mk.bind (Mk.alloc (n := .jsarr JSObj.empty) ObjMade.empty) fun i s1 _ h1 => ?_
  refine Mk.bind (Mk.record (known_new h1.1 (by rintro p ⟨⟩))) fun _ s2 _ h2 => Mk.bind Mk.lift fun n s3 g3 _ => ?_
  refine Mk.bind (Mk.resizeTo hpy n _ ObjMade.empty) fun o s4 g4 h4 => ?_
  obtain ⟨rfl, h4⟩ := h4
  refine Mk.bind (Mk.readProps hpy hr _ o h4) fun o s5 g5 h5 => Mk.bind Mk.lift fun m s6 g6 _ =>
    Mk.bind Mk.checkCount fun _ s7 _ h7 => ?_
  subst h7
  exact Mk.finish (s0 := s2) (h2 ▸ h1.1) rfl (g3.trans (g5.trans g6)) rfl (ObjMade.mono g6 h5)

/-! ## Buffers and views -/

theorem readUint32_lt {d : Bytes} {p n q : Nat} (h : readUint32 d p = .ok (n, q)) : n < 2 ^ 32 := by
  obtain ⟨a, p1, _, h⟩ := rd_bind_ok h
  split at h
  · rename_i hc
    cases h
    simp only [inUint32, Bool.and_eq_true, decide_eq_true_eq] at hc
    omega
  · cases h

theorem takeHere_length {n : Nat} {d : Bytes} {p : Nat} {bs : Bytes} {q : Nat} (h : takeHere n d p = .ok (bs, q)) : bs.length ≤ n := by
  unfold takeHere at h
  cases h
  simp

theorem fixedContents_length {d : Bytes} {p : Nat} {bs : Bytes} {q : Nat} (h : readFixedContents d p = .ok (bs, q)) :
    bs.length < 2 ^ 32 := by
  obtain ⟨n, p1, h1, h⟩ := rd_bind_ok h
  obtain ⟨_, p2, _, h⟩ := rd_bind_ok h
  have := takeHere_length h
  have := readUint32_lt h1
  omega

theorem resizableContents_length {d : Bytes} {p : Nat} {r : Bytes × Nat} {q : Nat}
    (h : readResizableContents d p = .ok (r, q)) : r.2 < 2 ^ 32 := by
  obtain ⟨n, p1, h1, h⟩ := rd_bind_ok h
  obtain ⟨_, p2, _, h⟩ := rd_bind_ok h
  obtain ⟨m, p3, h3, h⟩ := rd_bind_ok h
  obtain ⟨_, p4, _, h⟩ := rd_bind_ok h
  obtain ⟨bs, p5, _, h⟩ := rd_bind_ok h
  cases h
  exact readUint32_lt h3

theorem nodeContents_length {d : Bytes} {p : Nat} {r : ViewTag × Bytes} {q : Nat}
    (h : readNodeContents d p = .ok (r, q)) : r.2.length < 2 ^ 32 := by
  obtain ⟨c, p1, _, h⟩ := rd_bind_ok h
  obtain ⟨n, p2, h2, h⟩ := rd_bind_ok h
  obtain ⟨t, p3, _, h⟩ := rd_bind_ok h
  obtain ⟨_, p4, _, h⟩ := rd_bind_ok h
  obtain ⟨bs, p5, h5, h⟩ := rd_bind_ok h
  cases h
  have := takeHere_length h5
  have := readUint32_lt h2
  simp only
  omega

theorem abuf_fixed {h : Heap} {bs : Bytes} {b : ABuf} (hb : ABuf.mk' bs none false false = .ok b) (hl : bs.length < 2 ^ 32) :
    NodeMade py d.length h (.abuf b) := by
  unfold ABuf.mk' at hb
  simp at hb
  subst hb
  exact ⟨Nat.le_refl _, hl, fun _ => rfl⟩

theorem abuf_resizable {h : Heap} {bs : Bytes} {m : Nat} {b : ABuf} (hb : ABuf.mk' bs (some (m : Int)) true false = .ok b)
    (hl : m < 2 ^ 32) : NodeMade py d.length h (.abuf b) := by
  unfold ABuf.mk' at hb
  simp only [Bool.and_false, Bool.false_eq_true, if_false, Option.getD_some] at hb
  split at hb
  · cases hb
  · cases hb
    exact ⟨by simp; omega, by simp; omega, fun h => by simp at h⟩

theorem isBuffer_new {h : Heap} {i : Id} {n : Node} (hi : h[i]? = some n)
    (hn : (∃ b, n = .abuf b) ∨ (∃ x, n = .sharedBuf x) ∨ ∃ x, n = .transferBuf x) : isBuffer h (.obj i) = true := by
  unfold isBuffer
  rcases hn with ⟨b, rfl⟩ | ⟨b, rfl⟩ | ⟨b, rfl⟩ <;> simp [hi]

theorem known_buffer {h : Heap} {v : Val} (hv : isBuffer h v = true) : Known d.length h v := by
  cases v with
  | obj i =>
    simp only [isBuffer] at hv
    cases hi : h[i]? with
    | none => rw [hi] at hv; cases hv
    | some n => exact ⟨n, hi, by rintro p rfl; rw [hi] at hv; cases hv⟩
  | _ => cases hv

theorem Mk.arrayBuffer (t : Tag) : Mk py d s (readArrayBuffer t) (fun v s' => isBuffer s'.heap v = true) := by
  unfold readArrayBuffer
  split
  · refine Mk.bind Mk.lift fun bs s1 _ h1 => Mk.bind Mk.orRaise fun b s2 _ h2 => ?_
    obtain ⟨rfl, h2⟩ := h2
    obtain ⟨_, p, q, h1⟩ := h1
    refine Mk.bind (Mk.alloc (abuf_fixed h2 (fixedContents_length h1))) fun i s3 _ h3 => ?_
    have hb := isBuffer_new h3.1 (Or.inl ⟨b, rfl⟩)
    exact Mk.bind (Mk.record (known_buffer hb)) fun _ s4 _ h4 => Mk.pure (by rw [h4]; exact hb)
  · refine Mk.bind Mk.lift fun r s1 _ h1 => Mk.bind Mk.orRaise fun b s2 _ h2 => ?_
    obtain ⟨rfl, h2⟩ := h2
    obtain ⟨_, p, q, h1⟩ := h1
    refine Mk.bind (Mk.alloc (abuf_resizable h2 (resizableContents_length h1))) fun i s3 _ h3 => ?_
    have hb := isBuffer_new h3.1 (Or.inl ⟨b, rfl⟩)
    exact Mk.bind (Mk.record (known_buffer hb)) fun _ s4 _ h4 => Mk.pure (by rw [h4]; exact hb)
  · refine Mk.bind Mk.lift fun n s1 _ h1 => ?_
    obtain ⟨_, p, q, h1⟩ := h1
    have := readUint32_lt h1
    refine Mk.bind (Mk.alloc (n := .sharedBuf n) ⟨by omega, by omega⟩) fun i s3 _ h3 => ?_
    exact Mk.pure (isBuffer_new h3.1 (Or.inr (Or.inl ⟨_, rfl⟩)))
  · refine Mk.bind Mk.lift fun n s1 _ h1 => ?_
    obtain ⟨_, p, q, h1⟩ := h1
    have := readUint32_lt h1
    refine Mk.bind (Mk.alloc (n := .transferBuf n) ⟨by omega, by omega⟩) fun i s3 _ h3 => ?_
    exact Mk.pure (isBuffer_new h3.1 (Or.inr (Or.inr ⟨_, rfl⟩)))
  · exact Mk.fail

/-- A view that could be made on an accessible buffer is in range. -/
theorem create_inRange {tag : ViewTag} {r : Bool} {mv : Bytes} {off : Nat} {len : Option Nat} {v : View}
    (h : View.create tag r (some mv) off (len.map Int.ofNat) = .ok v) : v.isInRange mv = true := by
  by_contra hn
  have hn : v.isInRange mv = false := by simpa using hn
  unfold View.create at h
  simp only at h
  split at h
  · cases h
  · split at h
    · cases h
    · rename_i hoff hlen
      cases hmk : View.mk' tag ((off : Int) / tag.size) ((len.map Int.ofNat).map (· / (tag.size : Int))) with
      | error e => rw [hmk] at h; cases h
      | ok w =>
        rw [hmk] at h
        simp only at h
        have hwv : w = v ∧ ¬ ((w.byteOffset mv : Int) < off) ∧
            ∀ n, len = some n → ¬ ((w.byteLength mv : Int) < (n : Nat)) := by
          unfold View.checkBounds at h
          split at h
          · cases h
          · split at h
            · cases h
            · rename_i h2
              cases len with
              | none => exact ⟨by simpa using h, h2, by simp⟩
              | some n =>
                simp only [Option.map_some, Int.ofNat_eq_natCast] at h
                split at h
                · cases h
                · rename_i h3
                  refine ⟨by simpa using h, h2, ?_⟩
                  intro m hm
                  cases hm
                  exact h3
        obtain ⟨rfl, h1, h2⟩ := hwv
        have hz : off = 0 := by
          unfold View.byteOffset at h1
          rw [hn] at h1
          simp at h1
          omega
        subst hz
        have hw : w.itemOffset = 0 ∧ w.itemLength = len.map (· / tag.size) ∧ w.tag = tag := by
          unfold View.mk' at hmk
          rw [if_neg (by simp)] at hmk
          cases len with
          | none =>
            simp at hmk
            subst hmk
            simp
          | some n =>
            simp only [Option.map_some] at hmk
            rw [if_neg (by have := Int.ediv_nonneg (Int.natCast_nonneg n) (Int.natCast_nonneg tag.size); simpa using this)] at hmk
            simp at hmk
            subst hmk
            simp
            exact_mod_cast rfl
        unfold View.isInRange View.region at hn
        rw [hw.1, hw.2.1] at hn
        cases len with
        | none => simp at hn
        | some n =>
          have h3 := h2 n rfl
          unfold View.byteLength View.bytes View.region at h3
          rw [hw.1, hw.2.1] at h3
          simp only [Option.map_some, Nat.zero_mul, Nat.zero_add] at hn h3
          by_cases hc : n / tag.size * w.tag.size > mv.length
          · rw [if_pos hc] at h3
            have hn0 : n = 0 := by
              simp at h3
              omega
            subst hn0
            simp at hc
          · rw [if_neg hc] at hn
            simp at hn

theorem Mk.viewTagOf {raw : Nat} : Mk py d s (viewTagOf raw) (fun _ s' => s' = s) := by
  unfold V8.viewTagOf
  split
  · exact Mk.pure rfl
  · exact Mk.fail

theorem Mk.readViewFlags {v : Nat} : Mk py d s (readViewFlags v) (fun _ s' => s'.heap = s.heap) := by
  unfold V8.readViewFlags
  split
  · exact Mk.bind Mk.lift fun _ s1 _ h1 => Mk.weaken Mk.orRaise fun _ s2 h2 => by rw [h2.1, h1.1]
  · exact Mk.pure rfl

theorem Mk.view {b : Val} (hb : isBuffer s.heap b = true) : Mk py d s (readView b) (fun v s' => Known d.length s'.heap v) := by
  refine Mk.bind Mk.lift fun _ s1 _ h1 => Mk.bind Mk.lift fun raw s2 _ h2 => Mk.bind Mk.viewTagOf fun tag s3 _ h3 =>
    Mk.bind Mk.lift fun off s4 _ h4 => Mk.bind Mk.lift fun len s5 _ h5 => Mk.bind Mk.getVersion fun ver s6 _ h6 =>
    Mk.bind Mk.readViewFlags fun fl s7 _ h7 => Mk.bind Mk.getHeap fun h s8 _ h8 => Mk.bind Mk.orRaise fun v s9 _ h9 => ?_
  obtain ⟨rfl, h9⟩ := h9
  obtain ⟨rfl, rfl⟩ := h8
  subst h6 h3
  have hh : s9.heap = s.heap := h7.trans (h5.1.trans (h4.1.trans (h2.1.trans h1.1)))
  rw [← hh] at hb
  have hin : ∀ mv, backingBytes s9.heap b = some mv → v.isInRange mv = true := by
    intro mv hmv
    rw [hmv] at h9
    unfold viewByteLength at h9
    by_cases hfl : fl % 2 = 1
    · rw [if_pos hfl] at h9
      exact create_inRange (len := none) h9
    · rw [if_neg hfl] at h9
      exact create_inRange (len := some len) h9
  refine Mk.bind (Mk.alloc (n := .view b v) ⟨hb, hin⟩) fun i s10 _ h10 => ?_
  have hk := known_new (m := d.length) h10.1 (by rintro p ⟨⟩)
  exact Mk.bind (Mk.record hk) fun _ s11 _ h11 => Mk.pure (by rw [h11]; exact hk)

theorem Mk.viewAfter {b : Val} (hb : isBuffer s.heap b = true) : Mk py d s (viewAfter b) (fun v s' => Known d.length s'.heap v) := by
  refine Mk.bind Mk.lift fun c s1 _ h1 => ?_
  rw [← h1.1] at hb
  split
  · exact Mk.view hb
  · exact Mk.pure (known_buffer hb)

theorem Mk.buffer (t : Tag) : Mk py d s (decodeArrayBuffer t) (fun v s' => Known d.length s'.heap v) :=
  Mk.bind (Mk.arrayBuffer t) fun _ _ _ h => Mk.viewAfter h

theorem Mk.reference : Mk py d s decodeReference (fun v s' => Known d.length s'.heap v) := by
  refine Mk.bind Mk.lift fun n s1 _ _ => Mk.bind Mk.lookup fun v s2 _ h2 => Mk.bind Mk.getHeap fun h s3 _ h3 => ?_
  obtain ⟨rfl, rfl⟩ := h3
  by_cases hb : isBuffer s3.heap v = true
  · rw [if_pos hb]
    exact Mk.viewAfter hb
  · rw [if_neg hb]
    exact Mk.pure (by rw [h2.1]; exact h2.2)

theorem Mk.sharedRef : Mk py d s decodeSharedRef (fun v s' => Known d.length s'.heap v) := by
  refine Mk.bind Mk.lift fun n s1 _ h1 => ?_
  obtain ⟨_, p, q, h1⟩ := h1
  have := readUint32_lt h1
  refine Mk.bind (Mk.alloc (n := .sharedRef n) ⟨by omega, by omega⟩) fun i s3 _ h3 => ?_
  have hk := known_new (m := d.length) h3.1 (by rintro p ⟨⟩)
  exact Mk.bind (Mk.record hk) fun _ s11 _ h11 => Mk.pure (by rw [h11]; exact hk)

theorem Mk.nodeHost : Mk py d s decodeNodeHostObject (fun v s' => Known d.length s'.heap v) := by
  refine Mk.bind Mk.lift fun r s1 _ h1 => Mk.bind Mk.orRaise fun b s2 _ h2 => ?_
  obtain ⟨rfl, h2⟩ := h2
  obtain ⟨_, p, q, h1⟩ := h1
  refine Mk.bind (Mk.alloc (abuf_fixed h2 (nodeContents_length h1))) fun i s3 _ h3 => Mk.bind Mk.orRaise fun v s4 _ h4 => ?_
  obtain ⟨rfl, h4⟩ := h4
  have hb := isBuffer_new h3.1 (Or.inl ⟨b, rfl⟩)
  have hin : ∀ mv, backingBytes s4.heap (.obj i) = some mv → v.isInRange mv = true := by
    intro mv _
    unfold View.mk' at h4
    simp at h4
    subst h4
    simp [View.isInRange, View.region]
  refine Mk.bind (Mk.alloc (n := .view (.obj i) v) ⟨hb, hin⟩) fun j s5 _ h5 => ?_
  exact Mk.pure (known_new h5.1 (by rintro p ⟨⟩))

theorem Mk.host : Mk py d s (decodeHostObject env) (fun v s' => Known d.length s'.heap v) := by
  unfold decodeHostObject
  split
  · exact Mk.nodeHost
  · exact Mk.fail

/-! ## All of it -/

theorem Mk.scalar {α : Type} {r : Rd α} (f : α → Val) (hf : ∀ a h q q', r d q = .ok (a, q') → Known d.length h (f a)) :
    Mk py d s (RM.lift r >>= fun a => (Pure.pure (f a) : RM Val)) (fun v s' => Known d.length s'.heap v) :=
  Mk.bind Mk.lift fun a _ _ h => by
    obtain ⟨_, q, q', h⟩ := h
    exact Mk.pure (hf a _ q q' h)

theorem Mk.tagReader (hpy : FloatNames env.py) (hr : RecMade env.py d rec) (t : Tag) (next : Tag → RM Val)
    (hn : ∀ s t, Mk env.py d s (next t) (fun v s' => Known d.length s'.heap v)) :
    Mk env.py d s (tagReader env rec t next) (fun v s' => Known d.length s'.heap v) := by
  cases t <;>
  first
  | exact hn s _
  | exact Mk.fail
  | exact Mk.scalar .float (fun _ _ _ _ _ => trivial)
  | exact Mk.scalar (r := readStringUtf8) .str (fun _ _ _ _ h => readUtf8_plain h)
  | exact Mk.scalar (r := readStringOneByte) .str (fun _ _ _ _ h => readOneByte_plain h)
  | exact Mk.scalar (r := readStringTwoByte) .str (fun _ _ _ _ h => readTwoByte_plain h)
  | exact Mk.scalar (r := readBigint) .int (fun _ _ _ _ h => readBigint_size h)
  | exact Mk.scalar (r := readInt32) .int (fun _ _ _ _ h => readInt32_size h)
  | exact Mk.scalar (r := readUint32) (fun n : Nat => .int n) (fun n _ _ _ h => Or.inl (by
      have := readUint32_lt h
      show (n : Int).natAbs < 2 ^ 32
      omega))
  | exact Mk.pure trivial
  | exact Mk.primObj _
  | exact Mk.buffer _
  | exact Mk.regexp hr
  | exact Mk.jsmap hr
  | exact Mk.jsset hr
  | exact Mk.error hr
  | exact Mk.date env
  | exact Mk.reference
  | exact Mk.sharedRef
  | exact Mk.host
  | exact Mk.jsobject hpy hr
  | exact Mk.dense hpy hr
  | exact Mk.sparse hpy hr

theorem RecMade.decodeTag (hpy : FloatNames env.py) (fuel : Nat) : RecMade env.py d (decodeTag env fuel) := by
  induction fuel with
  | zero => intro s t; exact Mk.fail
  | succ f ih =>
    intro s t
    rw [decodeTag_succ]
    exact Mk.bind Mk.tick fun _ s1 _ _ => Mk.tagReader hpy ih t _ fun s t => Mk.fail

theorem loads_made {data : Bytes} {v : Val} {ds : DS} (hpy : FloatNames env.py) (h : loads env data = .ok (v, ds)) :
    Known data.length ds.heap v ∧ ds.Made env.py data.length := by
  unfold loads at h
  cases hh : readHeader data 0 with
  | error e => rw [hh] at h; cases h
  | ok r =>
    rw [hh] at h
    have := Mk.decodeNext (s := DS.start r.2 r.1) (RecMade.decodeTag (d := data) hpy (data.length - r.2 + 1))
      ⟨by simp [DS.start, ObjLog.empty], by simp [DS.start]⟩ v ds h
    exact ⟨this.2.2, this.1⟩

end V8
