import Verif.Proofs.Language
import Verif.Proofs.DecodeCounts

/-! Decoding computations and the steps they make. -/

namespace V8.Lang

open V8.Spec V8.Spec.Lang

variable {α β : Type} {d : Bytes} {ver : Nat}

/-- The state of the reader: the bytes left and what has been made. -/
structure At (d : Bytes) (ver : Nat) (s : DS) (w : World) (i : Bytes) : Prop where
  inside : s.pos ≤ d.length
  bytes : d.drop s.pos = i
  heap : s.heap = w.heap
  slots : s.log.slots = w.numbered.map .obj
  version : s.version = ver

/-- The computation makes exactly the steps of the relation. -/
structure RMSpec (d : Bytes) (ver : Nat) (x : RM α) (S : Step α) : Prop where
  sound : ∀ s w i a s', At d ver s w i → x d s = .ok (a, s') → ∃ w' r, At d ver s' w' r ∧ S w i a w' r
  complete : ∀ s w i a w' r, At d ver s w i → S w i a w' r → ∃ s', x d s = .ok (a, s') ∧ At d ver s' w' r

theorem RMSpec.congr {x : RM α} {S T : Step α} (h : RMSpec d ver x S) (hST : ∀ w i a w' r, S w i a w' r ↔ T w i a w' r) :
    RMSpec d ver x T :=
  ⟨fun s w i a s' ha hx => by
      obtain ⟨w', r, h1, h2⟩ := h.sound s w i a s' ha hx
      exact ⟨w', r, h1, (hST _ _ _ _ _).1 h2⟩,
   fun s w i a w' r ha hT => h.complete s w i a w' r ha ((hST _ _ _ _ _).2 hT)⟩

theorem RMSpec.bind {x : RM α} {f : α → RM β} {S : Step α} {T : α → Step β} (hx : RMSpec d ver x S)
    (hf : ∀ a, RMSpec d ver (f a) (T a)) :
    RMSpec d ver (x >>= f) (fun w i b w' r => ∃ a w1 m, S w i a w1 m ∧ T a w1 m b w' r) := by
  constructor
  · intro s w i b s' ha h
    obtain ⟨a, s1, h1, h2⟩ := RM.bind_eq_ok h
    obtain ⟨w1, m, g1, g2⟩ := hx.sound s w i a s1 ha h1
    obtain ⟨w', r, k1, k2⟩ := (hf a).sound s1 w1 m b s' g1 h2
    exact ⟨w', r, k1, a, w1, m, g2, k2⟩
  · rintro s w i b w' r ha ⟨a, w1, m, h1, h2⟩
    obtain ⟨s1, g1, g2⟩ := hx.complete s w i a w1 m ha h1
    obtain ⟨s2, k1, k2⟩ := (hf a).complete s1 w1 m b w' r g2 h2
    exact ⟨s2, by rw [RM.bind_ok g1]; exact k1, k2⟩

theorem RMSpec.pure (a : α) : RMSpec d ver (Pure.pure a : RM α) (fun w i b w' r => b = a ∧ w' = w ∧ r = i) := by
  constructor
  · intro s w i b s' ha h
    simp only [RM.pure_apply, Except.ok.injEq, Prod.mk.injEq] at h
    obtain ⟨rfl, rfl⟩ := h
    exact ⟨w, i, ha, rfl, rfl, rfl⟩
  · rintro s w i b w' r ha ⟨rfl, rfl, rfl⟩
    exact ⟨s, rfl, ha⟩

theorem RMSpec.fail (e : DErr) : RMSpec d ver (RM.fail e : RM α) (fun _ _ _ _ _ => False) :=
  ⟨fun s w i a s' ha h => by simp [RM.fail] at h, fun s w i a w' r ha h => h.elim⟩

theorem RMSpec.ite {c : Prop} [Decidable c] {x y : RM α} {S T : Step α} (hx : RMSpec d ver x S) (hy : RMSpec d ver y T) :
    RMSpec d ver (if c then x else y) (fun w i a w' r => if c then S w i a w' r else T w i a w' r) := by
  split <;> assumption

theorem RMSpec.lift {x : Rd α} {F : Form α} (h : RdSpec x F) :
    RMSpec d ver (RM.lift x) (fun w i a w' r => F i a r ∧ w' = w) := by
  constructor
  · intro s w i a s' ha hx
    obtain ⟨p, h1, rfl⟩ := RM.lift_eq_ok hx
    obtain ⟨g1, g2⟩ := h.sound d s.pos a p ha.inside h1
    exact ⟨w, d.drop p, ⟨g1, rfl, ha.heap, ha.slots, ha.version⟩, by rw [← ha.bytes]; exact g2, rfl⟩
  · rintro s w i a w' r ha ⟨hF, rfl⟩
    rw [← ha.bytes] at hF
    obtain ⟨p, h1, h2, h3⟩ := h.complete d s.pos a r ha.inside hF
    exact ⟨_, RM.lift_ok h1, h2, h3.symm, ha.heap, ha.slots, ha.version⟩

theorem RMSpec.orRaise (x : Except PyExc α) :
    RMSpec d ver (orRaise x) (fun w i a w' r => x = .ok a ∧ w' = w ∧ r = i) := by
  cases x with
  | ok a => exact (RMSpec.pure a).congr fun w i b w' r => by simp [eq_comm]
  | error e => exact (RMSpec.fail _).congr fun w i b w' r => by simp

theorem RMSpec.alloc (n : Node) :
    RMSpec d ver (alloc n) (fun w i a w' r => a = w.heap.length ∧ w' = w.add n ∧ r = i) := by
  constructor
  · intro s w i a s' ha h
    simp only [V8.alloc, Except.ok.injEq, Prod.mk.injEq] at h
    obtain ⟨rfl, rfl⟩ := h
    exact ⟨w.add n, i, ⟨ha.inside, ha.bytes, by simp [World.add, ha.heap], ha.slots, ha.version⟩, by rw [ha.heap], rfl, rfl⟩
  · rintro s w i a w' r ha ⟨rfl, rfl, rfl⟩
    exact ⟨{ s with heap := s.heap ++ [n] }, by rw [← ha.heap]; rfl, ha.inside, ha.bytes, by simp [World.add, ha.heap],
      ha.slots, ha.version⟩

theorem RMSpec.tick : RMSpec d ver tick (fun w i _ w' r => w' = w ∧ r = i) := by
  constructor
  · intro s w i a s' ha h
    simp only [V8.tick, Except.ok.injEq, Prod.mk.injEq, true_and] at h
    subst h
    exact ⟨w, i, ⟨ha.inside, ha.bytes, ha.heap, ha.slots, ha.version⟩, rfl, rfl⟩
  · rintro s w i a w' r ha ⟨rfl, rfl⟩
    exact ⟨_, rfl, ha.inside, ha.bytes, ha.heap, ha.slots, ha.version⟩

theorem RMSpec.setNode (j : Id) (n : Node) :
    RMSpec d ver (setNode j n) (fun w i _ w' r => w' = w.fill (.obj j) n ∧ r = i) := by
  constructor
  · intro s w i a s' ha h
    simp only [V8.setNode, Except.ok.injEq, Prod.mk.injEq, true_and] at h
    subst h
    exact ⟨w.fill (.obj j) n, i, ⟨ha.inside, ha.bytes, by simp [World.fill, ha.heap], ha.slots, ha.version⟩, rfl, rfl⟩
  · rintro s w i a w' r ha ⟨rfl, rfl⟩
    exact ⟨_, rfl, ha.inside, ha.bytes, by simp [World.fill, ha.heap], ha.slots, ha.version⟩

theorem RMSpec.recordD (v : Val) :
    RMSpec d ver (recordD v) (fun w i a w' r => a = w.numbered.length ∧ w' = w.number v ∧ r = i) := by
  have hl : ∀ {s : DS} {w : World} {i : Bytes}, At d ver s w i → (s.log.record v).2 = w.numbered.length := by
    intro s w i ha
    simp [ObjLog.record, ha.slots]
  have hA : ∀ {s : DS} {w : World} {i : Bytes}, At d ver s w i →
      At d ver { s with log := (s.log.record v).1 } (w.number v) i := by
    intro s w i ha
    exact ⟨ha.inside, ha.bytes, ha.heap, by simp [ObjLog.record, World.number, ha.slots], ha.version⟩
  constructor
  · intro s w i a s' ha h
    simp only [V8.recordD, Except.ok.injEq, Prod.mk.injEq] at h
    obtain ⟨rfl, rfl⟩ := h
    exact ⟨w.number v, i, hA ha, hl ha, rfl, rfl⟩
  · rintro s w i a w' r ha ⟨rfl, rfl, rfl⟩
    exact ⟨_, by rw [← hl ha]; rfl, hA ha⟩

theorem RMSpec.lookupD (n : Nat) :
    RMSpec d ver (lookupD n) (fun w i a w' r => w.numbered[n]? = some a ∧ w' = w ∧ r = i) := by
  have hg : ∀ {s : DS} {w : World} {i : Bytes}, At d ver s w i → s.log.getObject n =
      match w.numbered[n]? with
      | some v => .ok (.obj v)
      | none => .error .outOfRange := by
    intro s w i ha
    have hlen : s.log.slots.length = w.numbered.length := by rw [ha.slots, List.length_map]
    unfold ObjLog.getObject pyIndex
    rw [hlen, if_neg (by omega)]
    by_cases hn : n < w.numbered.length
    · rw [if_pos (by omega)]
      simp [ha.slots, hn]
    · rw [if_neg (by omega), List.getElem?_eq_none (by omega)]
  constructor
  · intro s w i a s' ha h
    unfold V8.lookupD at h
    rw [hg ha] at h
    cases hw : w.numbered[n]? with
    | none => rw [hw] at h; simp at h
    | some v =>
      rw [hw] at h
      simp only [Except.ok.injEq, Prod.mk.injEq] at h
      obtain ⟨rfl, rfl⟩ := h
      exact ⟨w, i, ha, rfl, rfl, rfl⟩
  · rintro s w i a w' r ha ⟨h1, rfl, rfl⟩
    refine ⟨s, ?_, ha⟩
    unfold V8.lookupD
    rw [hg ha, h1]

theorem RMSpec.getVersion : RMSpec d ver getVersion (fun w i a w' r => a = ver ∧ w' = w ∧ r = i) := by
  constructor
  · intro s w i a s' ha h
    simp only [V8.getVersion, Except.ok.injEq, Prod.mk.injEq] at h
    obtain ⟨rfl, rfl⟩ := h
    exact ⟨w, i, ha, ha.version, rfl, rfl⟩
  · rintro s w i a w' r ha ⟨rfl, rfl, rfl⟩
    exact ⟨s, by rw [← ha.version]; rfl, ha⟩

theorem RMSpec.getHeap : RMSpec d ver getHeap (fun w i a w' r => a = w.heap ∧ w' = w ∧ r = i) := by
  constructor
  · intro s w i a s' ha h
    simp only [V8.getHeap, Except.ok.injEq, Prod.mk.injEq] at h
    obtain ⟨rfl, rfl⟩ := h
    exact ⟨w, i, ha, ha.heap, rfl, rfl⟩
  · rintro s w i a w' r ha ⟨rfl, rfl, rfl⟩
    exact ⟨s, by rw [← ha.heap]; rfl, ha⟩

/-! ## Values without nested values -/

theorem plain_spec {x : Rd α} {F : Form α} (h : RdSpec x F) (val : α → Val) :
    RMSpec d ver (do let a ← RM.lift x; return val a) (Plain F val) := by
  refine ((RMSpec.lift h).bind fun a => RMSpec.pure (val a)).congr fun w i v w' r => ?_
  unfold Plain
  constructor
  · rintro ⟨a, w1, m, ⟨h1, rfl⟩, rfl, rfl, rfl⟩
    exact ⟨a, h1, rfl, rfl⟩
  · rintro ⟨a, h1, rfl, rfl⟩
    exact ⟨a, _, _, ⟨h1, rfl⟩, rfl, rfl, rfl⟩

theorem const_spec (v : Val) : RMSpec d ver (Pure.pure v) (Plain Nothing fun _ => v) :=
  (RMSpec.pure v).congr fun w i a w' r => by
    unfold Plain Nothing
    constructor
    · rintro ⟨rfl, rfl, rfl⟩; exact ⟨(), rfl, rfl, rfl⟩
    · rintro ⟨_, rfl, rfl, rfl⟩; exact ⟨rfl, rfl, rfl⟩

/-- Recording an object and replacing it by its value. -/
theorem numberValue_spec (p : PrimObj) : RMSpec d ver (do
      let i ← V8.alloc (.primObj p)
      let n ← V8.recordD (.obj i)
      replaceD n p.value
      return p.value)
    (fun w i v w' r => v = p.value ∧ w' = (w.add (.primObj p)).number p.value ∧ r = i) := by
  have key : ∀ {s : DS} {w : World} {i : Bytes}, At d ver s w i → ∃ s', (do
      let i ← V8.alloc (.primObj p)
      let n ← V8.recordD (.obj i)
      replaceD n p.value
      return p.value) d s = .ok (p.value, s') ∧ At d ver s' ((w.add (.primObj p)).number p.value) i := by
    intro s w i ha
    rw [RM.bind_ok (show V8.alloc (.primObj p) d s = .ok (s.heap.length, { s with heap := s.heap ++ [.primObj p] }) from rfl)]
    rw [RM.bind_ok rfl]
    have hrep : replaceD (({ s with heap := s.heap ++ [.primObj p] } : DS).log.record (.obj s.heap.length)).2 p.value d
        { s with heap := s.heap ++ [.primObj p], log := (s.log.record (.obj s.heap.length)).1 }
        = .ok ((), { s with
            heap := s.heap ++ [.primObj p],
            log := ⟨(s.log.record (.obj s.heap.length)).1.ids, s.log.slots ++ [.obj p.value]⟩ }) := by
      unfold replaceD ObjLog.replace
      simp [ObjLog.record]
    rw [RM.bind_ok hrep]
    exact ⟨_, rfl, ha.inside, ha.bytes, by simp [World.add, World.number, ha.heap],
      by simp [World.add, World.number, ha.slots], ha.version⟩
  constructor
  · intro s w i a s' ha h
    obtain ⟨s1, h1, h2⟩ := key ha
    rw [h1] at h
    simp only [Except.ok.injEq, Prod.mk.injEq] at h
    obtain ⟨rfl, rfl⟩ := h
    exact ⟨_, i, h2, rfl, rfl, rfl⟩
  · rintro s w i a w' r ha ⟨rfl, rfl, rfl⟩
    exact key ha

theorem wrapped_spec {t : Tag} {F : Form PrimObj} (h : RdSpec (readPrimObj t) F) :
    RMSpec d ver (decodePrimObj t) (Wrapped F) := by
  unfold decodePrimObj
  refine ((RMSpec.lift h).bind fun p => numberValue_spec p).congr fun w i v w' r => ?_
  unfold Wrapped
  constructor
  · rintro ⟨p, w1, m, ⟨h1, rfl⟩, rfl, rfl, rfl⟩
    exact ⟨p, h1, rfl, rfl⟩
  · rintro ⟨p, h1, rfl, rfl⟩
    exact ⟨p, _, _, ⟨h1, rfl⟩, rfl, rfl, rfl⟩

theorem arg_spec {x : Rd α} {F : Form α} (h : RdSpec x F) (con : α → PrimObj) :
    RdSpec (do let a ← x; return con a) (Arg F con) := by
  refine (h.bind fun a => RdSpec.pure (con a)).congr fun i p r => ?_
  unfold Arg
  constructor
  · rintro ⟨a, m, h1, rfl, rfl⟩; exact ⟨a, h1, rfl⟩
  · rintro ⟨a, h1, rfl⟩; exact ⟨a, r, h1, rfl, rfl⟩

theorem arg_const (p : PrimObj) : RdSpec (Pure.pure p : Rd PrimObj) (Arg Nothing fun _ => p) :=
  (RdSpec.pure p).congr fun i a r => by
    unfold Arg Nothing
    constructor
    · rintro ⟨rfl, rfl⟩; exact ⟨(), rfl, rfl⟩
    · rintro ⟨_, rfl, rfl⟩; exact ⟨rfl, rfl⟩

/-- Making an object and numbering it. -/
theorem make_spec (n : Node) : RMSpec d ver (do
      let i ← V8.alloc n
      let _ ← V8.recordD (.obj i)
      return (Val.obj i)) (fun w i v w' r => v = w.next ∧ w' = w.make n ∧ r = i) := by
  refine ((RMSpec.alloc n).bind fun j => (RMSpec.recordD (.obj j)).bind fun _ => RMSpec.pure _).congr fun w i v w' r => ?_
  unfold World.make World.next
  constructor
  · rintro ⟨j, w1, m, ⟨rfl, rfl, rfl⟩, _, w2, m2, ⟨_, rfl, rfl⟩, rfl, rfl, rfl⟩
    exact ⟨rfl, rfl, rfl⟩
  · rintro ⟨rfl, rfl, rfl⟩
    exact ⟨_, _, _, ⟨rfl, rfl, rfl⟩, _, _, _, ⟨rfl, rfl, rfl⟩, rfl, rfl, rfl⟩

theorem date_spec (env : DEnv) : RMSpec d ver (decodeDate env) (DateBody env) := by
  unfold decodeDate
  refine ((RMSpec.lift double_spec).bind fun ms => (RMSpec.orRaise (env.py.msDate ms)).bind
    fun x => make_spec (.date x)).congr fun w i v w' r => ?_
  unfold DateBody
  constructor
  · rintro ⟨ms, w1, m, ⟨h1, rfl⟩, x, w2, m2, ⟨h2, rfl, rfl⟩, rfl, rfl, rfl⟩
    exact ⟨ms, x, h1, h2, rfl, rfl⟩
  · rintro ⟨ms, x, h1, h2, rfl, rfl⟩
    exact ⟨ms, _, _, ⟨h1, rfl⟩, x, _, _, ⟨h2, rfl, rfl⟩, rfl, rfl, rfl⟩

theorem sharedObject_spec : RMSpec d ver decodeSharedRef SharedObject := by
  unfold decodeSharedRef
  refine ((RMSpec.lift number32_spec).bind fun n => make_spec (.sharedRef n)).congr fun w i v w' r => ?_
  unfold SharedObject
  constructor
  · rintro ⟨n, w1, m, ⟨h1, rfl⟩, rfl, rfl, rfl⟩
    exact ⟨n, h1, rfl, rfl⟩
  · rintro ⟨n, h1, rfl, rfl⟩
    exact ⟨n, _, _, ⟨h1, rfl⟩, rfl, rfl, rfl⟩

end V8.Lang
