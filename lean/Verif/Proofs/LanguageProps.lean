import Verif.Proofs.LanguageLoops

/-! Objects and arrays. -/

namespace V8.Lang

open V8.Spec V8.Spec.Lang

variable {d : Bytes} {ver : Nat} {rec : Tag → RM Val} {R : Tag → Step Val}

theorem putProp_spec (py : PyEnv) (o : JSObj Val) (key : RawKey) (v : Val) :
    RMSpec d ver (putProp py o key v) (fun w i o' w' r => (∃ k, normaliseKey py.floatStr key = .ok k ∧
      o.setitem k v.toElem = (o', none)) ∧ w' = w ∧ r = i) := by
  unfold putProp
  split
  · rename_i e h
    exact (RMSpec.fail _).congr fun w i b w' r => by simp [h]
  · rename_i k h
    split
    · rename_i o' h'
      exact (RMSpec.pure o').congr fun w i b w' r => by simp [h, h', eq_comm]
    · rename_i m' e h'
      exact (RMSpec.fail _).congr fun w i b w' r => by simp [h, h']

theorem checkKey_spec (v : Val) : RMSpec d ver (checkKey v) (fun w i raw w' r =>
    (IsKey v raw ∨ ∃ b, v = .bool b ∧ raw = .int (if b then 1 else 0)) ∧ w' = w ∧ r = i) := by
  cases v
  case int n =>
    refine (RMSpec.pure (RawKey.int n)).congr fun w i raw w' r => ?_
    constructor
    · rintro ⟨rfl, rfl, rfl⟩; exact ⟨.inl (.int n), rfl, rfl⟩
    · rintro ⟨(hk | ⟨b, hb, -⟩), rfl, rfl⟩
      · cases hk; exact ⟨rfl, rfl, rfl⟩
      · cases hb
  case bool b =>
    refine (RMSpec.pure (RawKey.int (if b then 1 else 0))).congr fun w i raw w' r => ?_
    constructor
    · rintro ⟨rfl, rfl, rfl⟩; exact ⟨.inr ⟨b, rfl, rfl⟩, rfl, rfl⟩
    · rintro ⟨(hk | ⟨b, hb, rfl⟩), rfl, rfl⟩
      · cases hk
      · cases hb
        exact ⟨rfl, rfl, rfl⟩
  case float x =>
    refine (RMSpec.pure (RawKey.float x)).congr fun w i raw w' r => ?_
    constructor
    · rintro ⟨rfl, rfl, rfl⟩; exact ⟨.inl (.float x), rfl, rfl⟩
    · rintro ⟨(hk | ⟨b, hb, -⟩), rfl, rfl⟩
      · cases hk; exact ⟨rfl, rfl, rfl⟩
      · cases hb
  case str x =>
    refine (RMSpec.pure (RawKey.str x)).congr fun w i raw w' r => ?_
    constructor
    · rintro ⟨rfl, rfl, rfl⟩; exact ⟨.inl (.str x), rfl, rfl⟩
    · rintro ⟨(hk | ⟨b, hb, -⟩), rfl, rfl⟩
      · cases hk; exact ⟨rfl, rfl, rfl⟩
      · cases hb
  all_goals
    refine (RMSpec.fail _).congr fun w i raw w' r => ⟨False.elim, ?_⟩
    rintro ⟨(hk | ⟨b, hb, -⟩), -⟩
    · cases hk
    · cases hb

theorem keyTags_contains (t : Tag) : jsObjectKeyTags.contains t = true ↔ keyTag t := by
  unfold keyTag textTag
  cases t <;> decide

theorem propsLoop_spec (env : DEnv) (hrec : ∀ t, RMSpec d ver (rec t) (R t)) (hfwd : Fwd rec)
    (hbool : ∀ t w i b w' r, keyTag t → ¬ R t w i (.bool b) w' r) (e : Tag) (he : ¬ keyTag e) (o : JSObj Val) (c : Nat) :
    RMSpec d ver (loopFuel >>= fun f => propsLoop env rec e f o c) (fun w i (p : JSObj Val × Nat) w' r =>
      ∃ es m1, Entries R keyTag w i es w' m1 ∧ TagAt m1 e r ∧ Assigned env.py.floatStr o es p.1 ∧
        p.2 = c + es.length) := by
  have hround : ∀ (st : JSObj Val × Nat) t, RMSpec d ver (do
        let k ← rec t
        let key ← checkKey k
        let v ← decodeNext rec
        let o' ← putProp env.py st.1 key v
        return (o', st.2 + 1)) (fun w i st' w' r => ∃ k raw v key w1 m1, R t w i k w1 m1 ∧
          (IsKey k raw ∨ ∃ b, k = .bool b ∧ raw = .int (if b then 1 else 0)) ∧ Item R anyTag w1 m1 v w' r ∧
          normaliseKey env.py.floatStr raw = .ok key ∧ st.1.setitem key v.toElem = (st'.1, none) ∧ st'.2 = st.2 + 1) := by
    intro st t
    refine ((hrec t).bind fun k => (checkKey_spec k).bind fun raw => (next_spec hrec).bind fun v =>
      (putProp_spec env.py st.1 raw v).bind fun o' => RMSpec.pure (o', st.2 + 1)).congr fun w i st' w' r => ?_
    constructor
    · rintro ⟨k, w1, m1, g1, raw, w2, m2, ⟨g2, rfl, rfl⟩, v, w3, m3, g3, o', w4, m4, ⟨⟨key, g4, g5⟩, rfl, rfl⟩, rfl, rfl, rfl⟩
      exact ⟨k, raw, v, key, _, _, g1, g2, g3, g4, g5, rfl⟩
    · obtain ⟨m', c'⟩ := st'
      rintro ⟨k, raw, v, key, w1, m1, g1, g2, g3, g4, g5, rfl⟩
      exact ⟨k, w1, m1, g1, raw, w1, m1, ⟨g2, rfl, rfl⟩, v, w', r, g3, m', w', r, ⟨⟨key, g4, g5⟩, rfl, rfl⟩, rfl, rfl, rfl⟩
  have hfin : ∀ (st : JSObj Val × Nat) t, RMSpec d ver (if t = e then Pure.pure st else RM.fail .decode)
      (fun w i p w' r => t = e ∧ p = st ∧ w' = w ∧ r = i) := by
    intro st t
    by_cases h : t = e
    · rw [if_pos h]; exact (RMSpec.pure st).congr fun w i b w' r => by simp [h]
    · rw [if_neg h]; exact (RMSpec.fail _).congr fun w i b w' r => by simp [h]
  have hl := loop_spec (d := d) (ver := ver) (c := fun t => jsObjectKeyTags.contains t = true)
    (L := fun f (st : JSObj Val × Nat) => propsLoop env rec e f st.1 st.2)
    (round := fun st t => do
        let k ← rec t
        let key ← checkKey k
        let v ← decodeNext rec
        let o' ← putProp env.py st.1 key v
        return (o', st.2 + 1)) (fin := fun st t => if t = e then Pure.pure st else RM.fail .decode) (fun _ => rfl)
    (by
      intro f st
      simp only [propsLoop, assoc]
      rfl)
    hround hfin
    (by
      intro st t s a s' h
      obtain ⟨k, s1, h1, h⟩ := RM.bind_eq_ok h
      obtain ⟨raw, s2, h2, h⟩ := RM.bind_eq_ok h
      obtain ⟨v, s3, h3, h⟩ := RM.bind_eq_ok h
      obtain ⟨o', s4, h4, hz⟩ := RM.bind_eq_ok h
      have e1 := hfwd _ _ _ _ _ h1
      have e2 := ReadsValue.lt hfwd (decodeNext_reads h3)
      have e3 := checkKey_state h2
      have e4 := putProp_state h4
      cases hz
      subst e3 e4
      omega) (o, c)
  refine hl.congr fun w i p w' r => ?_
  clear hl
  constructor
  · intro h
    generalize hst : (o, c) = st at h
    induction h generalizing o c with
    | stop ht hc hf =>
      obtain ⟨rfl, rfl, rfl, rfl⟩ := hf
      subst hst
      exact ⟨[], _, .nil _ _, ht, .nil _, rfl⟩
    | more ht hc hr _ ih =>
      subst hst
      rw [keyTags_contains] at hc
      obtain ⟨k, raw, v, key, w1, m1, g1, g2, g3, g4, g5, g6⟩ := hr
      obtain ⟨es, m2, j1, j2, j3, j4⟩ := ih _ _ rfl
      rcases g2 with g2 | ⟨b, rfl, -⟩
      · refine ⟨(k, v) :: es, m2, .cons ⟨_, _, ht, hc, g1⟩ g3 j1, j2, .cons g2 g4 g5 j3, ?_⟩
        rw [j4, g6, List.length_cons]
        simp only
        omega
      · exact absurd g1 (hbool _ _ _ _ _ _ hc)
  · rintro ⟨es, m1, h1, h2, h3, h4⟩
    induction h1 generalizing o c with
    | nil w i =>
      cases h3
      obtain ⟨p1, p2⟩ := p
      simp only at h4
      subst h4
      exact .stop h2 (by rw [keyTags_contains]; exact he) ⟨rfl, rfl, rfl, rfl⟩
    | cons hk hv _ ih =>
      obtain ⟨t, mt, k1, kt, k2⟩ := hk
      cases h3 with
      | cons g1 g2 g3 g4 =>
        refine .more (st' := (_, c + 1)) k1 ((keyTags_contains _).2 kt)
          ⟨_, _, _, _, _, _, k2, .inl g1, hv, g2, g3, rfl⟩ (ih _ _ h2 g4 ?_)
        rw [h4, List.length_cons]; omega

theorem props_spec (env : DEnv) (hrec : ∀ t, RMSpec d ver (rec t) (R t)) (hfwd : Fwd rec)
    (hbool : ∀ t w i b w' r, keyTag t → ¬ R t w i (.bool b) w' r) (e : Tag) (he : ¬ keyTag e) (o : JSObj Val) :
    RMSpec d ver (readProps env rec e o) (Props env R e o) := by
  have heq : readProps env rec e o = (do
      let r ← loopFuel >>= fun f => propsLoop env rec e f o 0
      let expected ← RM.lift readVarint
      checkCount expected r.2
      return r.1) := rfl
  rw [heq]
  refine ((propsLoop_spec env hrec hfwd hbool e he o 0).bind fun p => (RMSpec.lift number_spec).bind fun n =>
    (count_spec n p.2).bind fun _ => RMSpec.pure p.1).congr fun w i o' w' r => ?_
  unfold Props EndAt
  constructor
  · rintro ⟨p, w1, m1, ⟨es, m2, g1, g2, g3, g4⟩, n, w5, m5, ⟨g5, rfl⟩, _, w6, m6, ⟨rfl, rfl, rfl⟩, rfl, rfl, rfl⟩
    refine ⟨es, m2, g1, ⟨m1, g2, ?_⟩, g3⟩
    rw [g4, Nat.zero_add] at g5; exact g5
  · rintro ⟨es, m2, g1, ⟨m1, g2, g5⟩, g3⟩
    exact ⟨(o', es.length), w', m1, ⟨es, m2, g1, g2, g3, by simp⟩, _, _, r, ⟨g5, rfl⟩, (), _, _, ⟨rfl, rfl, rfl⟩,
      rfl, rfl, rfl⟩

theorem object_spec (env : DEnv) (hrec : ∀ t, RMSpec d ver (rec t) (R t)) (hfwd : Fwd rec)
    (hbool : ∀ t w i b w' r, keyTag t → ¬ R t w i (.bool b) w' r) :
    RMSpec d ver (decodeJSObject env rec) (ObjectBody env R) := by
  unfold decodeJSObject
  refine ((RMSpec.alloc _).bind fun j => (RMSpec.recordD (.obj j)).bind fun _ =>
    (props_spec env hrec hfwd hbool .kEndJSObject (by unfold keyTag textTag; decide) JSObj.empty).bind fun o =>
    (RMSpec.setNode j (.jsobj o)).bind fun _ => RMSpec.pure _).congr fun w i v w' r => ?_
  unfold ObjectBody
  constructor
  · rintro ⟨j, w1, m1, ⟨rfl, rfl, rfl⟩, _, w2, m2, ⟨_, rfl, rfl⟩, o, w3, m3, g1, _, w7, m7, ⟨rfl, rfl⟩, rfl, rfl, rfl⟩
    exact ⟨o, w3, g1, rfl, rfl⟩
  · rintro ⟨o, w3, g1, rfl, rfl⟩
    exact ⟨_, _, _, ⟨rfl, rfl, rfl⟩, _, _, _, ⟨rfl, rfl, rfl⟩, o, w3, r, g1, (), _, _, ⟨rfl, rfl⟩, rfl, rfl, rfl⟩

theorem elems_spec (env : DEnv) (hrec : ∀ t, RMSpec d ver (rec t) (R t)) (n k : Nat) (o : JSObj Val) :
    RMSpec d ver (elemsLoop env rec n k o) (fun w i o' w' r => ∃ vs, vs.length = n ∧ Items R w i vs w' r ∧
      Assigned env.py.floatStr o (indexed k vs) o') := by
  induction n generalizing k o with
  | zero =>
    refine (RMSpec.pure o).congr fun w i o' w' r => ?_
    constructor
    · rintro ⟨rfl, rfl, rfl⟩; exact ⟨[], rfl, .nil _ _, .nil _⟩
    · rintro ⟨vs, h1, h2, h3⟩
      obtain rfl := List.eq_nil_of_length_eq_zero h1
      cases h2
      cases h3
      exact ⟨rfl, rfl, rfl⟩
  | succ n ih =>
    unfold elemsLoop
    refine ((next_spec hrec).bind fun v => (putProp_spec env.py o (.int k) v).bind fun o' => ih (k + 1) o').congr
      fun w i o' w' r => ?_
    constructor
    · rintro ⟨v, w1, m1, g1, o1, w2, m2, ⟨⟨key, g2, g3⟩, rfl, rfl⟩, vs, rfl, g4, g5⟩
      exact ⟨v :: vs, rfl, .cons g1 g4, .cons (.int k) g2 g3 g5⟩
    · rintro ⟨vs, h1, h2, h3⟩
      cases h2 with
      | nil => cases h1
      | cons g1 g4 =>
        unfold indexed at h3
        cases h3 with
        | cons hk hn hs ht =>
          cases hk
          exact ⟨_, _, _, g1, _, _, _, ⟨⟨_, hn, hs⟩, rfl, rfl⟩, _, by simpa using h1, g4, ht⟩

theorem dense_spec (env : DEnv) (hrec : ∀ t, RMSpec d ver (rec t) (R t)) (hfwd : Fwd rec)
    (hbool : ∀ t w i b w' r, keyTag t → ¬ R t w i (.bool b) w' r) :
    RMSpec d ver (decodeDenseArray env rec) (DenseBody env R) := by
  unfold decodeDenseArray
  refine ((RMSpec.alloc _).bind fun j => (RMSpec.recordD (.obj j)).bind fun _ => (RMSpec.lift number_spec).bind fun n =>
    (elems_spec env hrec n 0 JSObj.empty).bind fun o1 =>
    (props_spec env hrec hfwd hbool .kEndDenseJSArray (by unfold keyTag textTag; decide) o1).bind fun o =>
    (RMSpec.lift number_spec).bind fun n' => (count_spec n n').bind fun _ =>
    (RMSpec.setNode j (.jsarr o)).bind fun _ => RMSpec.pure _).congr fun w i v w' r => ?_
  unfold DenseBody
  constructor
  · rintro ⟨j, w1, m1, ⟨rfl, rfl, rfl⟩, _, w2, m2, ⟨_, rfl, rfl⟩, n, w3, m3, ⟨g1, rfl⟩, o1, w4, m4, ⟨vs, rfl, g2, g3⟩,
      o, w5, m5, g4, n', w6, m6, ⟨g5, rfl⟩, _, w7, m7, ⟨rfl, rfl, rfl⟩, _, w8, m8, ⟨rfl, rfl⟩, rfl, rfl, rfl⟩
    exact ⟨vs, o1, o, _, _, _, _, _, g1, g2, g3, g4, g5, rfl, rfl⟩
  · rintro ⟨vs, o1, o, w1, w2, m1, m2, m3, g1, g2, g3, g4, g5, rfl, rfl⟩
    exact ⟨_, _, _, ⟨rfl, rfl, rfl⟩, _, _, _, ⟨rfl, rfl, rfl⟩, _, _, _, ⟨g1, rfl⟩, o1, w1, m2, ⟨vs, rfl, g2, g3⟩,
      o, w2, m3, g4, _, _, r, ⟨g5, rfl⟩, (), _, _, ⟨rfl, rfl, rfl⟩, (), _, _, ⟨rfl, rfl⟩, rfl, rfl, rfl⟩

theorem resize_spec (env : DEnv) (n : Nat) (o : JSObj Val) :
    RMSpec d ver (resizeTo env n o) (fun w i o' w' r =>
      Assigned env.py.floatStr o (if n = 0 then [] else [(.int (n - 1 : Nat), .hole)]) o' ∧ w' = w ∧ r = i) := by
  unfold resizeTo
  by_cases h : n = 0
  · rw [if_neg (by omega), if_pos h]
    refine (RMSpec.pure o).congr fun w i o' w' r => ?_
    constructor
    · rintro ⟨rfl, rfl, rfl⟩; exact ⟨.nil _, rfl, rfl⟩
    · rintro ⟨h, rfl, rfl⟩; cases h; exact ⟨rfl, rfl, rfl⟩
  · rw [if_pos (by omega), if_neg h]
    refine (putProp_spec env.py o _ .hole).congr fun w i o' w' r => ?_
    constructor
    · rintro ⟨⟨k, g1, g2⟩, rfl, rfl⟩; exact ⟨.cons (.int _) g1 g2 (.nil _), rfl, rfl⟩
    · rintro ⟨h, rfl, rfl⟩
      cases h with
      | cons hk hn hs ht =>
        cases hk
        cases ht
        exact ⟨⟨_, hn, hs⟩, rfl, rfl⟩

theorem sparse_spec (env : DEnv) (hrec : ∀ t, RMSpec d ver (rec t) (R t)) (hfwd : Fwd rec)
    (hbool : ∀ t w i b w' r, keyTag t → ¬ R t w i (.bool b) w' r) :
    RMSpec d ver (decodeSparseArray env rec) (SparseBody env R) := by
  unfold decodeSparseArray
  refine ((RMSpec.alloc _).bind fun j => (RMSpec.recordD (.obj j)).bind fun _ => (RMSpec.lift number_spec).bind fun n =>
    (resize_spec env n JSObj.empty).bind fun o1 =>
    (props_spec env hrec hfwd hbool .kEndSparseJSArray (by unfold keyTag textTag; decide) o1).bind fun o =>
    (RMSpec.lift number_spec).bind fun n' => (count_spec n n').bind fun _ =>
    (RMSpec.setNode j (.jsarr o)).bind fun _ => RMSpec.pure _).congr fun w i v w' r => ?_
  unfold SparseBody
  constructor
  · rintro ⟨j, w1, m1, ⟨rfl, rfl, rfl⟩, _, w2, m2, ⟨_, rfl, rfl⟩, n, w3, m3, ⟨g1, rfl⟩, o1, w4, m4, ⟨g2, rfl, rfl⟩,
      o, w5, m5, g4, n', w6, m6, ⟨g5, rfl⟩, _, w7, m7, ⟨rfl, rfl, rfl⟩, _, w8, m8, ⟨rfl, rfl⟩, rfl, rfl, rfl⟩
    exact ⟨_, o1, o, _, _, _, g1, g2, g4, g5, rfl, rfl⟩
  · rintro ⟨n, o1, o, w2, m1, m3, g1, g2, g4, g5, rfl, rfl⟩
    exact ⟨_, _, _, ⟨rfl, rfl, rfl⟩, _, _, _, ⟨rfl, rfl, rfl⟩, n, _, _, ⟨g1, rfl⟩, o1, _, _, ⟨g2, rfl, rfl⟩,
      o, w2, m3, g4, _, _, r, ⟨g5, rfl⟩, (), _, _, ⟨rfl, rfl, rfl⟩, (), _, _, ⟨rfl, rfl⟩, rfl, rfl, rfl⟩

end V8.Lang
