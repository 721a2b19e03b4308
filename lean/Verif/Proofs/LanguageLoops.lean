import Verif.Proofs.LanguageObj
import Verif.Proofs.Value

/-! The loops of Map, Set, Object and the arrays. -/

namespace V8.Lang

open V8.Spec V8.Spec.Lang

variable {α β γ σ ρ : Type} {d : Bytes} {ver : Nat}

theorem assoc (x : RM α) (f : α → RM β) (g : β → RM γ) : (x >>= f) >>= g = x >>= fun a => f a >>= g := by
  funext d s
  show RM.bind (RM.bind x f) g d s = RM.bind x (fun a => RM.bind (f a) g) d s
  unfold RM.bind
  cases x d s <;> rfl

/-- Rounds after tags that satisfy `c`, up to a tag that does not. -/
inductive Loop (c : Tag → Prop) (Rnd : σ → Tag → Step σ) (Fin : σ → Tag → Step ρ) : σ → Step ρ
  | stop {st : σ} {w w' : World} {i m r : Bytes} {t : Tag} {a : ρ} (ht : TagAt i t m) (hc : ¬ c t)
      (hf : Fin st t w m a w' r) : Loop c Rnd Fin st w i a w' r
  | more {st st' : σ} {w w1 w' : World} {i m m1 r : Bytes} {t : Tag} {a : ρ} (ht : TagAt i t m) (hc : c t)
      (hr : Rnd st t w m st' w1 m1) (hl : Loop c Rnd Fin st' w1 m1 a w' r) : Loop c Rnd Fin st w i a w' r

theorem loopFuel_bind (L : Nat → RM ρ) (d : Bytes) (s : DS) :
    (loopFuel >>= L) d s = L (d.length - s.pos + 1) d s := rfl

theorem loop_spec {c : Tag → Prop} [DecidablePred c] {Rnd : σ → Tag → Step σ} {Fin : σ → Tag → Step ρ}
    (L : Nat → σ → RM ρ) (round : σ → Tag → RM σ) (fin : σ → Tag → RM ρ)
    (h0 : ∀ st, L 0 st = RM.fail .fuel)
    (hs : ∀ f st, L (f + 1) st = (RM.lift readAnyTag >>= fun t => if c t then round st t >>= L f else fin st t))
    (hround : ∀ st t, RMSpec d ver (round st t) (Rnd st t)) (hfin : ∀ st t, RMSpec d ver (fin st t) (Fin st t))
    (hfwd : ∀ st t s a s', round st t d s = .ok (a, s') → s.pos ≤ s'.pos) (st : σ) :
    RMSpec d ver (loopFuel >>= fun f => L f st) (Loop c Rnd Fin st) := by
  constructor
  · intro s w i a s' ha h
    rw [loopFuel_bind] at h
    revert h
    generalize d.length - s.pos + 1 = f
    intro h
    induction f generalizing st s w i with
    | zero => rw [h0] at h; cases h
    | succ f ih =>
      rw [hs] at h
      obtain ⟨t, s1, h1, h2⟩ := RM.bind_eq_ok h
      obtain ⟨w1, m, g1, ⟨g2, rfl⟩⟩ := (RMSpec.lift anyTag_spec).sound _ _ _ _ _ ha h1
      split at h2
      · rename_i hc
        obtain ⟨st', s2, h3, h4⟩ := RM.bind_eq_ok h2
        obtain ⟨w2, m2, k1, k2⟩ := (hround st t).sound _ _ _ _ _ g1 h3
        obtain ⟨w', r, j1, j2⟩ := ih st' s2 w2 m2 k1 h4
        exact ⟨w', r, j1, .more g2 hc k2 j2⟩
      · rename_i hc
        obtain ⟨w', r, j1, j2⟩ := (hfin st t).sound _ _ _ _ _ g1 h2
        exact ⟨w', r, j1, .stop g2 hc j2⟩
  · intro s w i a w' r ha h
    rw [loopFuel_bind]
    have key : ∀ f, d.length - s.pos + 1 ≤ f → ∃ s', L f st d s = .ok (a, s') ∧ At d ver s' w' r := by
      induction h generalizing s with
      | stop ht hc hf =>
        rintro (_ | f) hle
        · omega
        obtain ⟨s1, h1, h2⟩ := (RMSpec.lift anyTag_spec).complete _ _ _ _ _ _ ha ⟨ht, rfl⟩
        obtain ⟨s2, h3, h4⟩ := (hfin _ _).complete _ _ _ _ _ _ h2 hf
        refine ⟨s2, ?_, h4⟩
        rw [hs, RM.bind_ok h1]
        simp only [if_neg hc]
        exact h3
      | more ht hc hr hl ih =>
        rintro (_ | f) hle
        · omega
        obtain ⟨s1, h1, h2⟩ := (RMSpec.lift anyTag_spec).complete _ _ _ _ _ _ ha ⟨ht, rfl⟩
        obtain ⟨s2, h3, h4⟩ := (hround _ _).complete _ _ _ _ _ _ h2 hr
        have hp1 : s.pos + 1 ≤ s1.pos := by
          obtain ⟨p, q1, rfl⟩ := RM.lift_eq_ok h1
          exact (readAnyTag_le q1).1
        have hp2 := hfwd _ _ _ _ _ h3
        have := h4.inside
        obtain ⟨s3, h5, h6⟩ := ih s2 h4 f (by omega)
        refine ⟨s3, ?_, h6⟩
        rw [hs, RM.bind_ok h1]
        simp only [if_pos hc]
        rw [RM.bind_ok h3]
        exact h5
    exact key _ (Nat.le_refl _)

theorem next_spec {rec : Tag → RM Val} {R : Tag → Step Val} (hrec : ∀ t, RMSpec d ver (rec t) (R t)) :
    RMSpec d ver (decodeNext rec) (Item R anyTag) := by
  unfold decodeNext
  refine ((RMSpec.lift anyTag_spec).bind hrec).congr fun w i v w' r => ?_
  unfold Item anyTag
  constructor
  · rintro ⟨t, w1, m, ⟨h1, rfl⟩, h2⟩; exact ⟨t, m, h1, trivial, h2⟩
  · rintro ⟨t, m, h1, -, h2⟩; exact ⟨t, _, m, ⟨h1, rfl⟩, h2⟩

theorem count_spec (a b : Nat) : RMSpec d ver (checkCount a b) (fun w i _ w' r => a = b ∧ w' = w ∧ r = i) := by
  unfold checkCount
  by_cases h : a = b
  · rw [if_neg (by simpa using h)]
    exact (RMSpec.pure ()).congr fun w i _ w' r => by simp [h]
  · rw [if_pos h]
    exact (RMSpec.fail _).congr fun w i _ w' r => by simp [h]

theorem tag_fun {i m m' : Bytes} {t t' : Tag} (h : TagAt i t m) (h' : TagAt i t' m') : t = t' ∧ m = m' := by
  obtain ⟨k, h0, h1⟩ := h
  obtain ⟨k', h0', h1'⟩ := h'
  subst h1
  induction k generalizing k' with
  | zero =>
    cases k' with
    | zero =>
      simp only [List.replicate_zero, List.nil_append, List.cons.injEq] at h1'
      exact ⟨Tag.byte_inj h1'.1, h1'.2⟩
    | succ k' =>
      simp only [List.replicate_zero, List.nil_append, List.replicate_succ, List.cons_append, List.cons.injEq] at h1'
      exact absurd h1'.1 h0
  | succ k ih =>
    cases k' with
    | zero =>
      simp only [List.replicate_zero, List.nil_append, List.replicate_succ, List.cons_append, List.cons.injEq] at h1'
      exact absurd h1'.1.symm h0'
    | succ k' =>
      simp only [List.replicate_succ, List.cons_append, List.cons.injEq, true_and] at h1'
      exact ih k' h1'

section Collections

variable {rec : Tag → RM Val} {R : Tag → Step Val}

/-! ## Map -/

theorem putEntry_spec (m : JSMap Val) (k v : Val) :
    RMSpec d ver (putEntry m k v) (fun w i m' w' r => m.setitem k v = (m', none) ∧ w' = w ∧ r = i) := by
  unfold putEntry
  split
  · rename_i m' h
    exact (RMSpec.pure m').congr fun w i b w' r => by simp [h, eq_comm]
  · rename_i m' e h
    exact (RMSpec.fail _).congr fun w i b w' r => by simp [h]

/-- All pairs stored, one after the other. -/
inductive Stored : JSMap Val → List (Val × Val) → JSMap Val → Prop
  | nil (m : JSMap Val) : Stored m [] m
  | cons {m m1 m2 : JSMap Val} {k v : Val} {es : List (Val × Val)} (h : m.setitem k v = (m1, none))
      (t : Stored m1 es m2) : Stored m ((k, v) :: es) m2

theorem mapLoop_spec (hrec : ∀ t, RMSpec d ver (rec t) (R t)) (hfwd : Fwd rec)
    (hend : ∀ w i v w' r, ¬ R .kEndJSMap w i v w' r) (m : JSMap Val) (c : Nat) :
    RMSpec d ver (loopFuel >>= fun f => mapLoop rec f m c) (fun w i (p : JSMap Val × Nat) w' r =>
      ∃ es m1, Entries R anyTag w i es w' m1 ∧ TagAt m1 .kEndJSMap r ∧ Stored m es p.1 ∧ p.2 = c + 2 * es.length) := by
  have hround : ∀ (st : JSMap Val × Nat) t, RMSpec d ver (do
        let k ← rec t
        let v ← decodeNext rec
        let m' ← putEntry st.1 k v
        return (m', st.2 + 2)) (fun w i st' w' r => ∃ k v w1 m1, R t w i k w1 m1 ∧ Item R anyTag w1 m1 v w' r ∧
          st.1.setitem k v = (st'.1, none) ∧ st'.2 = st.2 + 2) := by
    intro st t
    refine ((hrec t).bind fun k => (next_spec hrec).bind fun v => (putEntry_spec st.1 k v).bind fun m' =>
      RMSpec.pure (m', st.2 + 2)).congr fun w i st' w' r => ?_
    constructor
    · rintro ⟨k, w1, m1, g1, v, w2, m2, g2, m', w3, m3, ⟨g3, rfl, rfl⟩, rfl, rfl, rfl⟩
      exact ⟨k, v, w1, m1, g1, g2, g3, rfl⟩
    · obtain ⟨m', c'⟩ := st'
      rintro ⟨k, v, w1, m1, g1, g2, g3, rfl⟩
      exact ⟨k, w1, m1, g1, v, w', r, g2, m', w', r, ⟨g3, rfl, rfl⟩, rfl, rfl, rfl⟩
  have hl := loop_spec (d := d) (ver := ver) (c := fun t => ¬ t = .kEndJSMap)
    (L := fun f (st : JSMap Val × Nat) => mapLoop rec f st.1 st.2)
    (round := fun st t => do
        let k ← rec t
        let v ← decodeNext rec
        let m' ← putEntry st.1 k v
        return (m', st.2 + 2)) (fin := fun st _ => Pure.pure st) (fun _ => rfl)
    (by
      intro f st
      simp only [mapLoop, assoc]
      congr 1
      funext t
      by_cases ht : t = .kEndJSMap
      · rw [if_pos ht, if_neg (by simpa using ht)]
      · rw [if_neg ht, if_pos ht]; rfl)
    hround (fun st _ => RMSpec.pure st)
    (by
      intro st t s a s' h
      obtain ⟨k, s1, h1, h⟩ := RM.bind_eq_ok h
      obtain ⟨v, s2, h2, h⟩ := RM.bind_eq_ok h
      obtain ⟨m', s3, h3, hz⟩ := RM.bind_eq_ok h
      have e1 := hfwd _ _ _ _ _ h1
      have e2 := ReadsValue.lt hfwd (decodeNext_reads h2)
      obtain rfl := putEntry_state h3
      cases hz
      omega) (m, c)
  refine hl.congr fun w i p w' r => ?_
  clear hl
  constructor
  · intro h
    generalize hst : (m, c) = st at h
    induction h generalizing m c with
    | stop ht hc hf =>
      obtain ⟨rfl, rfl, rfl⟩ := hf
      subst hst
      rw [Decidable.not_not] at hc
      subst hc
      exact ⟨[], _, .nil _ _, ht, .nil _, rfl⟩
    | more ht hc hr _ ih =>
      subst hst
      obtain ⟨k, v, w1, m1, g1, g2, g3, g4⟩ := hr
      obtain ⟨es, m2, j1, j2, j3, j4⟩ := ih _ _ rfl
      refine ⟨(k, v) :: es, m2, .cons ⟨_, _, ht, trivial, g1⟩ g2 j1, j2, .cons g3 j3, ?_⟩
      rw [j4, g4, List.length_cons]
      simp only
      omega
  · rintro ⟨es, m1, h1, h2, h3, h4⟩
    induction h1 generalizing m c with
    | nil w i =>
      cases h3
      obtain ⟨p1, p2⟩ := p
      simp only at h4
      subst h4
      exact .stop h2 (by simp) ⟨rfl, rfl, rfl⟩
    | cons hk hv _ ih =>
      obtain ⟨t, mt, k1, -, k2⟩ := hk
      cases h3 with
      | cons g1 g2 =>
        refine .more (st' := (_, c + 2)) k1 ?_ ⟨_, _, _, _, k2, hv, g1, rfl⟩ (ih _ _ h2 g2 ?_)
        · rintro rfl; exact hend _ _ _ _ _ k2
        · rw [h4, List.length_cons]; omega

theorem stored_iff {m m' : JSMap Val} {es : List (Val × Val)} (hinv : m.Inv) :
    (Stored m es m' → (∀ e ∈ es, ¬ TooBig e.1) ∧
      m'.items = es.foldl (fun l e => mapStore e.1 e.2 l) m.items) ∧
    ((∀ e ∈ es, ¬ TooBig e.1) → ∃ m', Stored m es m') := by
  induction es generalizing m with
  | nil => exact ⟨fun h => by cases h; exact ⟨by simp, rfl⟩, fun _ => ⟨m, .nil m⟩⟩
  | cons e es ih =>
    obtain ⟨k, v⟩ := e
    by_cases hb : TooBig k
    · have hs : m.setitem k v = (m, some .overflowError) := by
        simp only [JSMap.setitem, (svz_error_iff k _).2 ⟨hb, rfl⟩]
      constructor
      · intro h; cases h with
        | cons h t => rw [hs] at h; cases h
      · intro h; exact absurd hb (h (k, v) (by simp))
    · obtain ⟨key, hk⟩ := svz_ok_of k hb
      have hs : m.setitem k v = (Dict.set m key (k, v), none) := by simp only [JSMap.setitem, hk]
      have hinv' : JSMap.Inv (Dict.set m key (k, v)) := KeyedInv.set hinv (k, v) key hk
      have he := JSMap.store_eq m hinv k v key hk
      constructor
      · intro h; cases h with
        | cons h t =>
          rw [hs] at h
          cases h
          obtain ⟨j1, j2⟩ := (ih hinv').1 t
          refine ⟨by rintro x hx; rcases List.mem_cons.1 hx with rfl | hx <;> [exact hb; exact j1 x hx], ?_⟩
          rw [j2, he, List.foldl_cons]
      · intro h
        obtain ⟨m', hm'⟩ := (ih hinv').2 fun x hx => h x (List.mem_cons_of_mem _ hx)
        exact ⟨m', .cons hs hm'⟩

theorem map_spec (hrec : ∀ t, RMSpec d ver (rec t) (R t)) (hfwd : Fwd rec)
    (hend : ∀ w i v w' r, ¬ R .kEndJSMap w i v w' r) : RMSpec d ver (decodeJSMap rec) (MapBody R) := by
  have heq : decodeJSMap rec = (do
      let i ← alloc (.jsmap [])
      let _ ← recordD (.obj i)
      let r ← loopFuel >>= fun f => mapLoop rec f [] 0
      let expected ← RM.lift readVarint
      checkCount expected r.2
      setNode i (.jsmap r.1.items)
      return .obj i) := rfl
  rw [heq]
  refine ((RMSpec.alloc _).bind fun j => (RMSpec.recordD (.obj j)).bind fun _ =>
    (mapLoop_spec hrec hfwd hend [] 0).bind fun p => (RMSpec.lift number_spec).bind fun n => (count_spec n p.2).bind
    fun _ => (RMSpec.setNode j (.jsmap p.1.items)).bind fun _ => RMSpec.pure _).congr fun w i v w' r => ?_
  unfold MapBody
  constructor
  · rintro ⟨j, w1, m1, ⟨rfl, rfl, rfl⟩, _, w2, m2, ⟨_, rfl, rfl⟩, p, w3, m3, ⟨es, m4, g1, g2, g3, g4⟩, n, w5, m5, ⟨g5, rfl⟩,
      _, w6, m6, ⟨rfl, rfl, rfl⟩, _, w7, m7, ⟨rfl, rfl⟩, rfl, rfl, rfl⟩
    obtain ⟨j1, j2⟩ := (stored_iff JSMap.inv_empty).1 g3
    refine ⟨es, _, m4, g1, ⟨m3, g2, ?_⟩, j1, rfl, ?_⟩
    · rw [g4, Nat.zero_add] at g5; exact g5
    · rw [j2]; rfl
  · rintro ⟨es, w3, m4, g1, ⟨m3, g2, g5⟩, g6, rfl, rfl⟩
    obtain ⟨m', hm'⟩ := (stored_iff (m' := []) JSMap.inv_empty).2 g6
    refine ⟨_, _, _, ⟨rfl, rfl, rfl⟩, _, _, _, ⟨rfl, rfl, rfl⟩, (m', 2 * es.length), w3, m3,
      ⟨es, m4, g1, g2, hm', by simp⟩, _, _, r, ⟨g5, rfl⟩, (), _, _, ⟨rfl, rfl, rfl⟩, (), _, _, ⟨rfl, rfl⟩, rfl, ?_, rfl⟩
    rw [((stored_iff JSMap.inv_empty).1 hm').2]
    rfl

/-! ## Set -/

theorem putMember_spec (m : JSSet) (v : Val) :
    RMSpec d ver (putMember m v) (fun w i m' w' r => m.add v = (m', none) ∧ w' = w ∧ r = i) := by
  unfold putMember
  split
  · rename_i m' h
    exact (RMSpec.pure m').congr fun w i b w' r => by simp [h, eq_comm]
  · rename_i m' e h
    exact (RMSpec.fail _).congr fun w i b w' r => by simp [h]

/-- All values added, one after the other. -/
inductive Added : JSSet → List Val → JSSet → Prop
  | nil (m : JSSet) : Added m [] m
  | cons {m m1 m2 : JSSet} {v : Val} {vs : List Val} (h : m.add v = (m1, none)) (t : Added m1 vs m2) :
      Added m (v :: vs) m2

theorem setLoop_spec (hrec : ∀ t, RMSpec d ver (rec t) (R t)) (hfwd : Fwd rec)
    (hend : ∀ w i v w' r, ¬ R .kEndJSSet w i v w' r) (m : JSSet) (c : Nat) :
    RMSpec d ver (loopFuel >>= fun f => setLoop rec f m c) (fun w i (p : JSSet × Nat) w' r =>
      ∃ vs m1, Items R w i vs w' m1 ∧ TagAt m1 .kEndJSSet r ∧ Added m vs p.1 ∧ p.2 = c + vs.length) := by
  have hround : ∀ (st : JSSet × Nat) t, RMSpec d ver (do
        let v ← rec t
        let m' ← putMember st.1 v
        return (m', st.2 + 1)) (fun w i st' w' r => ∃ v, R t w i v w' r ∧
          st.1.add v = (st'.1, none) ∧ st'.2 = st.2 + 1) := by
    intro st t
    refine ((hrec t).bind fun v => (putMember_spec st.1 v).bind fun m' =>
      RMSpec.pure (m', st.2 + 1)).congr fun w i st' w' r => ?_
    constructor
    · rintro ⟨v, w1, m1, g1, m', w3, m3, ⟨g3, rfl, rfl⟩, rfl, rfl, rfl⟩
      exact ⟨v, g1, g3, rfl⟩
    · obtain ⟨m', c'⟩ := st'
      rintro ⟨v, g1, g3, rfl⟩
      exact ⟨v, _, _, g1, m', w', r, ⟨g3, rfl, rfl⟩, rfl, rfl, rfl⟩
  have hl := loop_spec (d := d) (ver := ver) (c := fun t => ¬ t = .kEndJSSet)
    (L := fun f (st : JSSet × Nat) => setLoop rec f st.1 st.2)
    (round := fun st t => do
        let v ← rec t
        let m' ← putMember st.1 v
        return (m', st.2 + 1)) (fin := fun st _ => Pure.pure st) (fun _ => rfl)
    (by
      intro f st
      simp only [setLoop, assoc]
      congr 1
      funext t
      by_cases ht : t = .kEndJSSet
      · rw [if_pos ht, if_neg (by simpa using ht)]
      · rw [if_neg ht, if_pos ht]; rfl)
    hround (fun st _ => RMSpec.pure st)
    (by
      intro st t s a s' h
      obtain ⟨k, s1, h1, h⟩ := RM.bind_eq_ok h
      obtain ⟨m', s3, h3, hz⟩ := RM.bind_eq_ok h
      have e1 := hfwd _ _ _ _ _ h1
      obtain rfl := putMember_state h3
      cases hz
      omega) (m, c)
  refine hl.congr fun w i p w' r => ?_
  clear hl
  constructor
  · intro h
    generalize hst : (m, c) = st at h
    induction h generalizing m c with
    | stop ht hc hf =>
      obtain ⟨rfl, rfl, rfl⟩ := hf
      subst hst
      rw [Decidable.not_not] at hc
      subst hc
      exact ⟨[], _, .nil _ _, ht, .nil _, rfl⟩
    | more ht hc hr _ ih =>
      subst hst
      obtain ⟨v, g1, g3, g4⟩ := hr
      obtain ⟨vs, m2, j1, j2, j3, j4⟩ := ih _ _ rfl
      refine ⟨v :: vs, m2, .cons ⟨_, _, ht, trivial, g1⟩ j1, j2, .cons g3 j3, ?_⟩
      rw [j4, g4, List.length_cons]
      simp only
      omega
  · rintro ⟨vs, m1, h1, h2, h3, h4⟩
    induction h1 generalizing m c with
    | nil w i =>
      cases h3
      obtain ⟨p1, p2⟩ := p
      simp only at h4
      subst h4
      exact .stop h2 (by simp) ⟨rfl, rfl, rfl⟩
    | cons hk _ ih =>
      obtain ⟨t, mt, k1, -, k2⟩ := hk
      cases h3 with
      | cons g1 g2 =>
        refine .more (st' := (_, c + 1)) k1 ?_ ⟨_, k2, g1, rfl⟩ (ih _ _ h2 g2 ?_)
        · rintro rfl; exact hend _ _ _ _ _ k2
        · rw [h4, List.length_cons]; omega

theorem added_iff {m m' : JSSet} {vs : List Val} (hinv : m.Inv) :
    (Added m vs m' → (∀ v ∈ vs, ¬ TooBig v) ∧
      m'.members = vs.foldl (fun l v => setStore v l) m.members) ∧
    ((∀ v ∈ vs, ¬ TooBig v) → ∃ m', Added m vs m') := by
  induction vs generalizing m with
  | nil => exact ⟨fun h => by cases h; exact ⟨by simp, rfl⟩, fun _ => ⟨m, .nil m⟩⟩
  | cons k es ih =>
    by_cases hb : TooBig k
    · have hs : m.add k = (m, some .overflowError) := by
        simp only [JSSet.add, (svz_error_iff k _).2 ⟨hb, rfl⟩]
      constructor
      · intro h; cases h with
        | cons h t => rw [hs] at h; cases h
      · intro h; exact absurd hb (h k (by simp))
    · obtain ⟨key, hk⟩ := svz_ok_of k hb
      have hs : m.add k = (Dict.set m key k, none) := by simp only [JSSet.add, hk]
      have hinv' : JSSet.Inv (Dict.set m key k) := KeyedInv.set hinv k key hk
      have he := JSSet.store_eq m hinv k key hk
      constructor
      · intro h; cases h with
        | cons h t =>
          rw [hs] at h
          cases h
          obtain ⟨j1, j2⟩ := (ih hinv').1 t
          refine ⟨by rintro x hx; rcases List.mem_cons.1 hx with rfl | hx <;> [exact hb; exact j1 x hx], ?_⟩
          rw [j2, he, List.foldl_cons]
      · intro h
        obtain ⟨m', hm'⟩ := (ih hinv').2 fun x hx => h x (List.mem_cons_of_mem _ hx)
        exact ⟨m', .cons hs hm'⟩

theorem set_spec (hrec : ∀ t, RMSpec d ver (rec t) (R t)) (hfwd : Fwd rec)
    (hend : ∀ w i v w' r, ¬ R .kEndJSSet w i v w' r) : RMSpec d ver (decodeJSSet rec) (SetBody R) := by
  have heq : decodeJSSet rec = (do
      let i ← alloc (.jsset [])
      let _ ← recordD (.obj i)
      let r ← loopFuel >>= fun f => setLoop rec f [] 0
      let expected ← RM.lift readVarint
      checkCount expected r.2
      setNode i (.jsset r.1.members)
      return .obj i) := rfl
  rw [heq]
  refine ((RMSpec.alloc _).bind fun j => (RMSpec.recordD (.obj j)).bind fun _ =>
    (setLoop_spec hrec hfwd hend [] 0).bind fun p => (RMSpec.lift number_spec).bind fun n => (count_spec n p.2).bind
    fun _ => (RMSpec.setNode j (.jsset p.1.members)).bind fun _ => RMSpec.pure _).congr fun w i v w' r => ?_
  unfold SetBody
  constructor
  · rintro ⟨j, w1, m1, ⟨rfl, rfl, rfl⟩, _, w2, m2, ⟨_, rfl, rfl⟩, p, w3, m3, ⟨es, m4, g1, g2, g3, g4⟩, n, w5, m5, ⟨g5, rfl⟩,
      _, w6, m6, ⟨rfl, rfl, rfl⟩, _, w7, m7, ⟨rfl, rfl⟩, rfl, rfl, rfl⟩
    obtain ⟨j1, j2⟩ := (added_iff JSSet.inv_empty).1 g3
    refine ⟨es, _, m4, g1, ⟨m3, g2, ?_⟩, j1, rfl, ?_⟩
    · rw [g4, Nat.zero_add] at g5; exact g5
    · rw [j2]; rfl
  · rintro ⟨es, w3, m4, g1, ⟨m3, g2, g5⟩, g6, rfl, rfl⟩
    obtain ⟨m', hm'⟩ := (added_iff (m' := []) JSSet.inv_empty).2 g6
    refine ⟨_, _, _, ⟨rfl, rfl, rfl⟩, _, _, _, ⟨rfl, rfl, rfl⟩, (m', es.length), w3, m3,
      ⟨es, m4, g1, g2, hm', by simp⟩, _, _, r, ⟨g5, rfl⟩, (), _, _, ⟨rfl, rfl, rfl⟩, (), _, _, ⟨rfl, rfl⟩, rfl, ?_, rfl⟩
    rw [((added_iff JSSet.inv_empty).1 hm').2]
    rfl

end Collections

end V8.Lang
