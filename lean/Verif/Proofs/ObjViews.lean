import Verif.Spec.ObjViews
import Verif.Proofs.Views
import Verif.Proofs.DecodeMade
import Verif.Props.ObjectMixins
import Verif.Props.Decoded

/-!
# Lemmas for the views of a JSObject
-/

namespace V8.Props
open V8 V8.Spec

variable {β : Type}

/-! ## The keys of an object -/

/-- All keys of the properties are as `P` says. -/
def KeysAre (P : PKey → Prop) (m : Entries β) : Prop := ∀ e ∈ m.items, P e.1

theorem keysAre_iff {P : PKey → Prop} {m : Entries β} :
    KeysAre P m ↔ (∀ e ∈ m.elems, P (.idx e.1)) ∧ ∀ e ∈ m.named, P (.name e.1) := by
  unfold KeysAre Entries.items
  constructor
  · intro h
    exact ⟨fun e he => h (.idx e.1, e.2) (List.mem_append_left _ (List.mem_map.2 ⟨e, he, rfl⟩)),
      fun e he => h (.name e.1, e.2) (List.mem_append_right _ (List.mem_map.2 ⟨e, he, rfl⟩))⟩
  · rintro ⟨h1, h2⟩ e he
    rcases List.mem_append.1 he with he | he
    · obtain ⟨x, hx, rfl⟩ := List.mem_map.1 he
      exact h1 x hx
    · obtain ⟨x, hx, rfl⟩ := List.mem_map.1 he
      exact h2 x hx

theorem keysAre_empty {P : PKey → Prop} : KeysAre P (Entries.empty : Entries β) := fun _ he => nomatch he

theorem KeysAre.put {P : PKey → Prop} {m : Entries β} (h : KeysAre P m) {k : PKey} (hk : P k) (v : Option β) :
    KeysAre P (m.put k v) := by
  rw [keysAre_iff] at h ⊢
  obtain ⟨h1, h2⟩ := h
  cases k with
  | idx n =>
    cases v with
    | none => exact ⟨fun e he => h1 e (List.mem_filter.1 he).1, h2⟩
    | some w =>
      refine ⟨fun e he => ?_, h2⟩
      simp only [Entries.put, putIndex, List.mem_append, List.mem_cons] at he
      rcases he with he | rfl | he
      · exact h1 e (List.mem_filter.1 he).1
      · exact hk
      · exact h1 e (List.mem_filter.1 he).1
  | name s =>
    cases v with
    | none => exact ⟨h1, fun e he => h2 e (List.mem_filter.1 he).1⟩
    | some w =>
      refine ⟨h1, fun e he => ?_⟩
      simp only [Entries.put, putName] at he
      split at he
      · obtain ⟨x, hx, rfl⟩ := List.mem_map.1 he
        split
        · exact hk
        · exact h2 x hx
      · rcases List.mem_append.1 he with he | he
        · exact h2 e he
        · cases List.mem_singleton.1 he
          exact hk

theorem KeysAre.step {P : PKey → Prop} {m : Entries β} (h : KeysAre P m) {op : ObjOpX β}
    (hk : ∀ k, op.key = some k → P k) : KeysAre P (entriesStep m op).1 := by
  cases op with
  | get k => simp only [entriesStep]; cases m.value k <;> exact h
  | set k v => exact h.put (hk k rfl) v
  | del k =>
    simp only [entriesStep]
    cases m.value k
    · exact h
    · exact h.put (hk k rfl) none
  | contains k => exact h
  | getDefault k d => exact h
  | pop k d =>
    simp only [entriesStep]
    cases m.value k
    · cases d <;> exact h
    · exact h.put (hk k rfl) none
  | popitem =>
    simp only [entriesStep]
    cases hm : m.items with
    | nil => exact h
    | cons e t =>
      obtain ⟨k, v⟩ := e
      exact h.put (h (k, v) (by rw [hm]; exact List.mem_cons_self)) none
  | setdefault k d =>
    simp only [entriesStep]
    cases m.value k
    · exact h.put (hk k rfl) d
    · exact h
  | clear => exact keysAre_empty
  | keys => exact h
  | len => exact h

theorem KeysAre.hist {P : PKey → Prop} (ops : List (ObjOpX β)) : ∀ {m : Entries β}, KeysAre P m →
    (∀ op ∈ ops, ∀ k, op.key = some k → P k) → KeysAre P (runHist entriesStep m ops).1 := by
  induction ops with
  | nil => intro m h _; exact h
  | cons op t ih =>
    intro m h hk
    exact ih (h.step (hk op List.mem_cons_self)) (fun op' ho => hk op' (List.mem_cons_of_mem _ ho))

theorem normaliseVal_raw {fs : F64 → Str} {v : Val} {k : PKey} (h : normaliseVal fs v = .ok k) :
    ∃ raw, normaliseKey fs raw = .ok k := by
  cases v with
  | int n => exact ⟨.int n, h⟩
  | bool b => exact ⟨.int (if b then 1 else 0), h⟩
  | float x => exact ⟨.float x, h⟩
  | str s => exact ⟨.str s, h⟩
  | hole => cases h
  | undef => cases h
  | null => cases h
  | bytes b => cases h
  | obj i => cases h

/-- Normalising a normalised key changes nothing. -/
theorem stored_of_normalised {py : PyEnv} (hpy : FloatNames py) {v : Val} {k : PKey}
    (h : normaliseVal py.floatStr v = .ok k) : StoredKey py.floatStr k := by
  obtain ⟨raw, hr⟩ := normaliseVal_raw h
  cases k with
  | idx n => exact normaliseKey_idx py.floatStr (normaliseKey_valid hr)
  | name s => exact normaliseKey_name hpy hr

/-- What the views need to know of an object. -/
structure Viewable (fs : F64 → Str) (o : JSObj β) : Prop where
  keys : o.keys = o.items.map (·.1)
  nodup : o.keys.Nodup
  len : o.len = o.keys.length
  found : ∀ k v, (k, v) ∈ o.items → o.getitem k = .ok v
  missing : ∀ k, k ∉ o.keys → o.getitem k = .error .keyError
  stored : ∀ k ∈ o.keys, StoredKey fs k

theorem viewable {py : PyEnv} (hpy : FloatNames py) {o : JSObj β} (h : BuiltObject py.floatStr o) :
    Viewable py.floatStr o := by
  obtain ⟨ops, hk, rfl⟩ := h
  obtain ⟨h1, h2, _⟩ := entries_hist isEntries_empty indexesValid_empty ops (fun op ho k hkk => by
    obtain ⟨v, hv⟩ := hk op ho k hkk
    obtain ⟨raw, hr⟩ := normaliseVal_raw hv
    exact normaliseKey_valid hr)
  have h3 : KeysAre (StoredKey py.floatStr) (runHist entriesStep (Entries.empty : Entries β) ops).1 :=
    KeysAre.hist ops keysAre_empty (fun op ho k hkk => by
      obtain ⟨v, hv⟩ := hk op ho k hkk
      exact stored_of_normalised hpy hv)
  generalize (runHist objStepX (JSObj.empty : JSObj β) ops).1 = o at h1 ⊢
  generalize (runHist entriesStep (Entries.empty : Entries β) ops).1 = m at h1 h2 h3
  have hn : (Dict.keys m.named).Nodup := by rw [← h1.named]; exact h1.inv.names
  have hkeys : o.keys = o.items.map (·.1) := by rw [h1.items, h1.keys]
  refine ⟨hkeys, ?_, ?_, ?_, ?_, ?_⟩
  · rw [h1.keys]
    unfold Entries.items
    rw [List.map_append, List.map_map, List.map_map]
    refine List.nodup_append.2 ⟨?_, ?_, ?_⟩
    · have := (List.pairwise_map.2 h1.sorted : (m.elems.map Prod.fst).Pairwise (· < ·))
      have h' : (m.elems.map Prod.fst).Nodup := this.imp Nat.ne_of_lt
      have := h'.map (f := PKey.idx) (fun a b hab => by cases hab; rfl)
      rwa [List.map_map] at this
    · have := hn.map (f := PKey.name) (fun a b hab => by cases hab; rfl)
      rw [Dict.keys, List.map_map] at this
      exact this
    · intro a ha b hb
      obtain ⟨x, _, rfl⟩ := List.mem_map.1 ha
      obtain ⟨y, _, rfl⟩ := List.mem_map.1 hb
      simp
  · rw [h1.len, h1.keys, List.length_map]
  · intro k v hm
    rw [h1.items] at hm
    rw [h1.getitem, valueOf_mem_items h1.sorted hn hm]
  · intro k hk
    rw [h1.getitem]
    cases hv : m.value k with
    | none => rfl
    | some v =>
      refine absurd ?_ hk
      rw [h1.keys]
      unfold Entries.items
      rw [List.map_append, List.map_map, List.map_map]
      cases k with
      | idx n =>
        refine List.mem_append_left _ ?_
        have := (mem_fst_iff n m.elems).2 (by
          show (m.value (.idx n)).isSome = true
          rw [hv]; rfl)
        obtain ⟨e, he, hee⟩ := List.mem_map.1 this
        exact List.mem_map.2 ⟨e, he, congrArg PKey.idx hee⟩
      | name s =>
        refine List.mem_append_right _ ?_
        have := (mem_fst_iff s m.named).2 (by
          show (m.value (.name s)).isSome = true
          rw [hv]; rfl)
        obtain ⟨e, he, hee⟩ := List.mem_map.1 this
        exact List.mem_map.2 ⟨e, he, congrArg PKey.name hee⟩
  · intro k hk
    rw [h1.keys] at hk
    obtain ⟨e, he, rfl⟩ := List.mem_map.1 hk
    exact h3 e he

theorem hasVal_eq {fs : F64 → Str} {o : JSObj β} (h : Viewable fs o) {v : Val} {k : PKey}
    (hv : normaliseVal fs v = .ok k) : o.hasVal fs v = .ok (decide (k ∈ o.keys)) := by
  unfold JSObj.hasVal JSObj.getVal
  rw [hv]
  simp only
  by_cases hk : k ∈ o.keys
  · rw [decide_eq_true hk]
    rw [h.keys] at hk
    obtain ⟨e, he, rfl⟩ := List.mem_map.1 hk
    rw [h.found e.1 e.2 he]
  · rw [decide_eq_false hk, h.missing k hk]

/-! ## Sets of keys -/

theorem toVal_inj {k k' : PKey} (h : k.toVal = k'.toVal) : k = k' := by
  cases k <;> cases k' <;> simp [PKey.toVal] at h <;> simp [h]

/-- A set of stored keys: the keys of an object, or a Python set of such values. -/
structure KeySet (fs : F64 → Str) (a : SetView) (ks : List PKey) : Prop where
  els : a.els = ks.map PKey.toVal
  nodup : ks.Nodup
  has : ∀ k, StoredKey fs k → a.has k.toVal = .ok (decide (k ∈ ks))
  stored : ∀ k ∈ ks, StoredKey fs k

theorem keySet_object {fs : F64 → Str} {o : JSObj β} (h : Viewable fs o) : KeySet fs (o.keysView fs) o.keys :=
  ⟨rfl, h.nodup, fun _ hk => hasVal_eq h hk, h.stored⟩

theorem distinct_keys {py : PyCompare} (hp : PlainKeys py) {ks : List PKey} (h : ks.Nodup) :
    DistinctKeys py (ks.map PKey.toVal) := by
  refine ⟨fun v hv => ?_, ?_⟩
  · obtain ⟨k, _, rfl⟩ := List.mem_map.1 hv
    exact hp.hash k
  · rw [List.pairwise_map]
    exact h.imp (fun hne he => hne ((hp.equal _ _).1 he))

theorem keySet_set {fs : F64 → Str} {py : PyCompare} (hw : HashesWell py) (hp : PlainKeys py) {ks : List PKey}
    (h : ks.Nodup) (hs : ∀ k ∈ ks, StoredKey fs k) : KeySet fs (.ofSet py (ks.map PKey.toVal)) ks := by
  refine ⟨rfl, h, fun k _ => ?_, hs⟩
  obtain ⟨b, hb, hq⟩ := ofSet_has hw (distinct_keys hp h) (hp.hash k)
  rw [hb]
  congr 1
  rw [Bool.eq_iff_iff, hq, decide_eq_true_eq]
  constructor
  · rintro ⟨w, hw', he⟩
    obtain ⟨k', hk', rfl⟩ := List.mem_map.1 hw'
    rwa [← (hp.equal _ _).1 he]
  · intro hk
    exact ⟨_, List.mem_map_of_mem hk, (hp.equal _ _).2 rfl⟩

theorem KeySet.le {fs : F64 → Str} {a b : SetView} {ka kb : List PKey} (ha : KeySet fs a ka) (hb : KeySet fs b kb) :
    ∃ x, a.le b = .ok x ∧ (x = true ↔ ka ⊆ kb) := by
  unfold SetView.le
  rw [ha.els, hb.els, List.length_map, List.length_map]
  by_cases hl : ka.length > kb.length
  · refine ⟨false, by rw [if_pos hl], ?_⟩
    simp only [Bool.false_eq_true, false_iff]
    intro hs
    have := (ha.nodup.subperm hs).length_le
    omega
  · rw [if_neg hl]
    obtain ⟨x, hx, hq⟩ := allE_iff (test := b.has) (l := ka.map PKey.toVal)
      (P := fun v => ∃ k ∈ kb, v = k.toVal) (fun v hv => by
        obtain ⟨k, hk, rfl⟩ := List.mem_map.1 hv
        refine ⟨_, hb.has k (ha.stored k hk), ?_⟩
        rw [decide_eq_true_eq]
        exact ⟨fun h => ⟨k, h, rfl⟩, fun ⟨k', h, he⟩ => by rwa [toVal_inj he]⟩)
    refine ⟨x, hx, hq.trans ⟨fun h k hk => ?_, fun h v hv => ?_⟩⟩
    · obtain ⟨k', hk', he⟩ := h _ (List.mem_map_of_mem hk)
      rwa [toVal_inj he]
    · obtain ⟨k, hk, rfl⟩ := List.mem_map.1 hv
      exact ⟨k, h hk, rfl⟩

theorem KeySet.compare {fs : F64 → Str} {a b : SetView} {ka kb : List PKey} (ha : KeySet fs a ka)
    (hb : KeySet fs b kb) :
    (∃ x, a.le b = .ok x ∧ (x = true ↔ ka ⊆ kb)) ∧
    (∃ x, a.ge b = .ok x ∧ (x = true ↔ kb ⊆ ka)) ∧
    (∃ x, a.lt b = .ok x ∧ (x = true ↔ ka ⊆ kb ∧ ¬ kb ⊆ ka)) ∧
    (∃ x, a.gt b = .ok x ∧ (x = true ↔ kb ⊆ ka ∧ ¬ ka ⊆ kb)) ∧
    (∃ x, a.eqv b = .ok x ∧ (x = true ↔ ka ⊆ kb ∧ kb ⊆ ka)) := by
  have sub : ∀ {x y : List PKey}, x.Nodup → x ⊆ y → x.length ≤ y.length := fun hx hs => (hx.subperm hs).length_le
  have full : ∀ {x y : List PKey}, x.Nodup → x ⊆ y → x.length = y.length → y ⊆ x := fun hx hs hl =>
    ((hx.subperm hs).perm_of_length_le hl.ge).symm.subset
  have hla : a.els.length = ka.length := by rw [ha.els, List.length_map]
  have hlb : b.els.length = kb.length := by rw [hb.els, List.length_map]
  have hge : a.ge b = b.le a := rfl
  obtain ⟨x, hx, hq⟩ := ha.le hb
  obtain ⟨y, hy, hr⟩ := hb.le ha
  refine ⟨⟨x, hx, hq⟩, ⟨y, hy, hr⟩, ?_, ?_, ?_⟩
  · unfold SetView.lt
    rw [hla, hlb]
    by_cases hl : ka.length < kb.length
    · rw [if_pos hl]
      refine ⟨x, hx, hq.trans ⟨fun h => ⟨h, fun h' => ?_⟩, fun h => h.1⟩⟩
      have := sub hb.nodup h'
      omega
    · rw [if_neg hl]
      refine ⟨false, rfl, ?_⟩
      simp only [Bool.false_eq_true, false_iff]
      rintro ⟨h1, h2⟩
      have := sub ha.nodup h1
      exact h2 (full ha.nodup h1 (by omega))
  · unfold SetView.gt
    rw [hla, hlb, hge]
    by_cases hl : ka.length > kb.length
    · rw [if_pos hl]
      refine ⟨y, hy, hr.trans ⟨fun h => ⟨h, fun h' => ?_⟩, fun h => h.1⟩⟩
      have := sub ha.nodup h'
      omega
    · rw [if_neg hl]
      refine ⟨false, rfl, ?_⟩
      simp only [Bool.false_eq_true, false_iff]
      rintro ⟨h1, h2⟩
      have := sub hb.nodup h1
      exact h2 (full hb.nodup h1 (by omega))
  · unfold SetView.eqv
    rw [hla, hlb]
    by_cases hl : ka.length = kb.length
    · rw [if_pos hl]
      exact ⟨x, hx, hq.trans ⟨fun h => ⟨h, full ha.nodup h hl⟩, fun h => h.1⟩⟩
    · rw [if_neg hl]
      refine ⟨false, rfl, ?_⟩
      simp only [Bool.false_eq_true, false_iff]
      rintro ⟨h1, h2⟩
      have := sub ha.nodup h1
      have := sub hb.nodup h2
      omega

theorem makeSet_keys {py : PyCompare} (hw : HashesWell py) (hp : PlainKeys py) {test : Val → Except PyExc Bool}
    {b : PKey → Bool} {l : List PKey} (ht : ∀ k ∈ l, test k.toVal = .ok (b k)) :
    ∃ r, SetView.makeSet py test (l.map PKey.toVal) = .ok (r.map PKey.toVal) ∧
      SetOf r (fun k => k ∈ l ∧ b k = true) := by
  classical
  obtain ⟨r, h1, h2⟩ := makeSet_ok hw (test := test) (l := l.map PKey.toVal)
    (b := fun v => decide (∃ k, k.toVal = v ∧ b k = true)) (fun v hv => by
      obtain ⟨k, hk, rfl⟩ := List.mem_map.1 hv
      rw [ht k hk]
      congr 1
      rw [Bool.eq_iff_iff, decide_eq_true_eq]
      exact ⟨fun h => ⟨k, rfl, h⟩, fun ⟨k', he, h⟩ => by rwa [← toVal_inj he]⟩) (fun v hv _ => by
      obtain ⟨k, _, rfl⟩ := List.mem_map.1 hv
      exact hp.hash k)
  have hf : (l.map PKey.toVal).filter (fun v => decide (∃ k, k.toVal = v ∧ b k = true)) =
      (l.filter b).map PKey.toVal := by
    rw [List.filter_map]
    congr 1
    refine List.filter_congr fun k _ => ?_
    simp only [Function.comp_apply]
    rw [Bool.eq_iff_iff, decide_eq_true_eq]
    exact ⟨fun ⟨k', he, h⟩ => by rwa [← toVal_inj he], fun h => ⟨k, rfl, h⟩⟩
  rw [hf] at h2
  obtain ⟨r', hr', rfl⟩ := List.sublist_map_iff.1 h2.1
  refine ⟨r', h1, ?_, fun k => ⟨fun hk => List.mem_filter.1 (hr'.subset hk), fun hk => ?_⟩⟩
  · have := h2.2.1.2
    rw [List.pairwise_map] at this
    exact this.imp (fun hn he => hn ((hp.equal _ _).2 he))
  · obtain ⟨w, hw', he⟩ := keeps_member h2 (List.mem_map_of_mem (List.mem_filter.2 hk))
    obtain ⟨k', hk', rfl⟩ := List.mem_map.1 hw'
    rwa [← (hp.equal _ _).1 he]

theorem KeySet.and {fs : F64 → Str} {py : PyCompare} (hw : HashesWell py) (hp : PlainKeys py) {a : SetView}
    {ka l : List PKey} (ha : KeySet fs a ka) (hl : ∀ k ∈ l, StoredKey fs k) :
    ∃ r, SetView.and py a (l.map PKey.toVal) = .ok (r.map PKey.toVal) ∧ SetOf r (fun k => k ∈ ka ∧ k ∈ l) := by
  obtain ⟨r, h1, h2, h3⟩ := makeSet_keys hw hp (test := a.has) (l := l) (fun k hk => ha.has k (hl k hk))
  exact ⟨r, h1, h2, fun k => by simp only [h3, decide_eq_true_eq, and_comm]⟩

theorem KeySet.or {fs : F64 → Str} {py : PyCompare} (hw : HashesWell py) (hp : PlainKeys py) {a : SetView}
    {ka : List PKey} (l : List PKey) (ha : KeySet fs a ka) :
    ∃ r, SetView.or py a (l.map PKey.toVal) = .ok (r.map PKey.toVal) ∧ SetOf r (fun k => k ∈ ka ∨ k ∈ l) := by
  obtain ⟨r, h1, h2, h3⟩ := makeSet_keys hw hp (test := fun _ => .ok true) (b := fun _ => true) (l := ka ++ l)
    (fun k hk => rfl)
  refine ⟨r, ?_, h2, fun k => by simp [h3]⟩
  unfold SetView.or
  rw [ha.els, ← List.map_append]
  exact h1

theorem KeySet.sub {fs : F64 → Str} {py : PyCompare} (hw : HashesWell py) (hp : PlainKeys py) {a b : SetView}
    {ka kb : List PKey} (ha : KeySet fs a ka) (hb : KeySet fs b kb) :
    ∃ r, SetView.sub py a b = .ok (r.map PKey.toVal) ∧ SetOf r (fun k => k ∈ ka ∧ k ∉ kb) := by
  obtain ⟨r, h1, h2, h3⟩ := makeSet_keys hw hp (test := JSSet.notIn b.has) (b := fun k => !decide (k ∈ kb)) (l := ka)
    (fun k hk => by
      unfold JSSet.notIn
      rw [hb.has k (ha.stored k hk)]
      rfl)
  refine ⟨r, ?_, h2, fun k => by simp [h3]⟩
  unfold SetView.sub
  rw [ha.els]
  exact h1

theorem KeySet.xor {fs : F64 → Str} {py : PyCompare} (hw : HashesWell py) (hp : PlainKeys py) {a b : SetView}
    {ka kb : List PKey} (ha : KeySet fs a ka) (hb : KeySet fs b kb) :
    ∃ r, SetView.xor py a b = .ok (r.map PKey.toVal) ∧
      SetOf r (fun k => (k ∈ ka ∧ k ∉ kb) ∨ (k ∈ kb ∧ k ∉ ka)) := by
  obtain ⟨x, h1, _, h3⟩ := ha.sub hw hp hb
  obtain ⟨y, g1, _, g3⟩ := hb.sub hw hp ha
  obtain ⟨r, f1, f2, f3⟩ := makeSet_keys hw hp (test := fun _ => .ok true) (b := fun _ => true) (l := x ++ y)
    (fun k hk => rfl)
  refine ⟨r, ?_, f2, fun k => by simp [f3, h3, g3]⟩
  unfold SetView.xor
  rw [h1, g1]
  simp only
  rw [← List.map_append]
  exact f1

end V8.Props
