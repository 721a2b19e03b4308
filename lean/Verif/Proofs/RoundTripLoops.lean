import Verif.Proofs.RoundTripBase

/-! Helper lemmas for the round trip: sequences of values and of properties. -/

namespace V8
open Spec

/-- The decoder reads the values one after another. -/
def ReadsVals (dec : Tag → RM Val) (d : Bytes) : DS → List Val → DS → Prop
  | s, [], s' => s = s'
  | s, w :: t, s' => ∃ tg s1, startTag tg = true ∧ readAnyTag d s.pos = .ok (tg, s.pos + 1) ∧
      dec tg d { s with pos := s.pos + 1 } = .ok (w, s1) ∧ ReadsVals dec d s1 t s'

/-- The decoder reads properties one after another. -/
def ReadsProps (fs : F64 → Str) (dec : Tag → RM Val) (d : Bytes) : DS → List (PKey × Val) → DS → Prop
  | s, [], s' => s = s'
  | s, (k, w) :: t, s' => ∃ tg kv raw s1 tg' s2, tg ∈ jsObjectKeyTags ∧
      readAnyTag d s.pos = .ok (tg, s.pos + 1) ∧
      dec tg d { s with pos := s.pos + 1 } = .ok (kv, s1) ∧ checkKey kv = RM.pure raw ∧
      normaliseKey fs raw = .ok k ∧ readAnyTag d s1.pos = .ok (tg', s1.pos + 1) ∧
      dec tg' d { s1 with pos := s1.pos + 1 } = .ok (w, s2) ∧ ReadsProps fs dec d s2 t s'

theorem readAnyTag_here {d : Bytes} {p : Nat} {t : Tag} {rest suf : Bytes}
    (h : Here d p (t.byte :: rest) suf) (ht : t ≠ .kPadding) :
    readAnyTag d p = .ok (t, p + 1) := by
  have := h.uncons.1.read (readAnyTag_reads ht)
  simpa using this

theorem decodeNext_of {dec : Tag → RM Val} {d : Bytes} {s : DS} {t : Tag} {r : Except DErr (Val × DS)}
    (h : readAnyTag d s.pos = .ok (t, s.pos + 1)) (h' : dec t d { s with pos := s.pos + 1 } = r) :
    decodeNext dec d s = r := by
  unfold decodeNext
  rw [RM.bind_ok (RM.lift_ok h)]
  exact h'

/-! ## Writing -/

/-- Written bytes that end a value or are empty do not let a view follow. -/
def Closed (bs : Bytes) : Prop := ∀ suf, NV suf → NV (bs ++ suf)

theorem Closed.nil : Closed [] := fun _ h => h

theorem Closed.tag {t : Tag} (h : t ≠ .kArrayBufferView) (bs : Bytes) : Closed (t.byte :: bs) :=
  fun suf _ => NV.cons h (bs ++ suf)

theorem writeVals_back {env : EEnv} {z : F64} {rec : Val → Wr} {dec : Tag → RM Val} (hrec : RecBack env z rec dec) :
    ∀ (els : List Val) (ws ws' : WS), writeVals rec els ws = .ok ws' → ws.allowed = none →
    ∃ bs, Wrote ws ws' bs ∧ els.length ≤ bs.length ∧ Closed bs ∧
      ∀ P ds, SimW env z P ws ds → Fine z ws' → ∃ P' vs ds',
        (∀ d suf, Here d ds.pos bs suf → NV suf → ReadsVals dec d ds vs ds') ∧
        ds'.pos = ds.pos + bs.length ∧ SimW env z P' ws' ds' ∧ Step env z P P' ds.heap ds'.heap ∧
        List.Forall₂ (SameVal env z P') els vs := by
  intro els
  induction els with
  | nil =>
    intro ws ws' h ha
    simp only [writeVals, Except.ok.injEq] at h
    subst h
    exact ⟨[], Wrote.refl ha, by simp, Closed.nil, fun P ds hs _ =>
      ⟨P, [], ds, fun _ _ _ _ => rfl, by simp, hs, Step.refl _ _ _ _, .nil⟩⟩
  | cons v t ih =>
    intro ws ws' h ha
    obtain ⟨w1, h1, h2⟩ := Except.bind_eq_ok h
    obtain ⟨tg, rest, ht, hw, hback⟩ := hrec v ws w1 h1 ha
    obtain ⟨bs, hw2, hlen, hcl, hback2⟩ := ih w1 ws' h2 hw.allowed
    refine ⟨tg.byte :: rest ++ bs, hw.trans hw2, by simp; omega, ?_, ?_⟩
    · intro suf _
      exact NV.cons (startTag.not_view ht) _
    · intro P ds hs hb
      obtain ⟨P1, w, ds1, hd1, hp1, hs1, hst1, hv1⟩ :=
        hback P { ds with pos := ds.pos + 1 } hs (hw2.fine hb)
      obtain ⟨P2, vs, ds2, hd2, hp2, hs2, hst2, hv2⟩ := hback2 P1 ds1 hs1 hb
      refine ⟨P2, w :: vs, ds2, ?_, ?_, hs2, hst1.trans hst2, ?_⟩
      · intro d suf hh hnv
        obtain ⟨hh1, hh2⟩ := Here.uncons (b := rest ++ bs) hh
        refine ⟨tg, ds1, ht, readAnyTag_here hh (startTag.not_padding ht), ?_, ?_⟩
        · exact hd1 d (bs ++ suf) hh2.left (hcl _ hnv)
        · refine hd2 d suf ?_ hnv
          have := hh2.right
          rw [hp1]
          exact this
      · rw [hp2, hp1]; simp; omega
      · exact .cons (SameVal.mono hst2.mono hv1) hv2

theorem writeEntries_eq (rec : Val → Wr) (es : List (Val × Val)) (ws : WS) :
    writeEntries rec es ws = writeVals rec (es.flatMap (fun e => [e.1, e.2])) ws := by
  induction es generalizing ws with
  | nil => rfl
  | cons e t ih =>
    obtain ⟨k, v⟩ := e
    simp only [writeEntries, List.flatMap_cons, List.cons_append, List.nil_append, writeVals]
    cases rec k ws with
    | error e => rfl
    | ok w1 =>
      show (rec v w1 >>= fun w => writeEntries rec t w) = (rec v w1 >>= fun w => writeVals rec _ w)
      cases rec v w1 with
      | error e => rfl
      | ok w2 => exact ih w2

/-- How keys are written and read back. -/
def KeyBack (fs : F64 → Str) (rec : Val → Wr) (dec : Tag → RM Val) (k : PKey) : Prop :=
  ∀ ws ws', writeKey rec k.toVal ws = .ok ws' → ∃ t rest, t ∈ jsObjectKeyTags ∧
    ws' = { ws with data := ws.data ++ t.byte :: rest, allowed := none } ∧ ∃ kv raw,
    checkKey kv = RM.pure raw ∧ normaliseKey fs raw = .ok k ∧
    ∀ d (ds : DS) suf, Here d ds.pos rest suf →
      dec t d ds = .ok (kv, { ds with pos := ds.pos + rest.length, calls := ds.calls + 1 })

theorem keyTag_start {t : Tag} (h : t ∈ jsObjectKeyTags) : startTag t = true := by
  simp only [jsObjectKeyTags, List.mem_cons, List.not_mem_nil, or_false] at h
  rcases h with rfl | rfl | rfl | rfl | rfl | rfl | rfl | rfl <;> rfl

theorem writeProps_back {env : EEnv} {z : F64} {fs : F64 → Str} {rec : Val → Wr} {dec : Tag → RM Val}
    (hrec : RecBack env z rec dec) :
    ∀ (l : List (PKey × Val)) (ws ws' : WS), (∀ e ∈ l, KeyBack fs rec dec e.1) →
    writeProps rec (itemVals l) ws = .ok ws' → ws.allowed = none →
    ∃ bs, Wrote ws ws' bs ∧ l.length ≤ bs.length ∧ Closed bs ∧
      ∀ P ds, SimW env z P ws ds → Fine z ws' → ∃ P' l' ds',
        (∀ d suf, Here d ds.pos bs suf → NV suf → ReadsProps fs dec d ds l' ds') ∧
        ds'.pos = ds.pos + bs.length ∧ SimW env z P' ws' ds' ∧ Step env z P P' ds.heap ds'.heap ∧
        SameItems env z P' l l' := by
  intro l
  induction l with
  | nil =>
    intro ws ws' _ h ha
    simp only [itemVals, List.map_nil, writeProps, Except.ok.injEq] at h
    subst h
    exact ⟨[], Wrote.refl ha, by simp, Closed.nil, fun P ds hs _ =>
      ⟨P, [], ds, fun _ _ _ _ => rfl, by simp, hs, Step.refl _ _ _ _, .nil⟩⟩
  | cons e t ih =>
    obtain ⟨k, v⟩ := e
    intro ws ws' hk h ha
    obtain ⟨w0, h0, h⟩ := Except.bind_eq_ok (h : (writeKey rec k.toVal ws >>= fun w =>
      rec v w >>= fun w => writeProps rec (itemVals t) w) = _)
    obtain ⟨w1, h1, h2⟩ := Except.bind_eq_ok h
    obtain ⟨kt, krest, hkt, hw0, kv, raw, hck, hnk, hkd⟩ := hk (k, v) (by simp) ws w0 h0
    have hw0' : Wrote ws w0 (kt.byte :: krest) := by
      subst hw0; exact ⟨rfl, rfl, id, fun _ => id⟩
    obtain ⟨tg, rest, ht, hw, hback⟩ := hrec v w0 w1 h1 hw0'.allowed
    obtain ⟨bs, hw2, hlen, hcl, hback2⟩ := ih w1 ws' (fun e he => hk e (by simp [he])) h2 hw.allowed
    refine ⟨kt.byte :: krest ++ (tg.byte :: rest ++ bs), hw0'.trans (hw.trans hw2), ?_, ?_, ?_⟩
    · simp; omega
    · intro suf _
      exact NV.cons (startTag.not_view (keyTag_start hkt)) _
    · intro P ds hs hb
      have hs0 : SimW env z P w0 { ds with pos := ds.pos + 1 + krest.length + 1, calls := ds.calls + 1 } := by
        subst hw0; exact hs
      obtain ⟨P1, w, ds1, hd1, hp1, hs1, hst1, hv1⟩ := hback P _ hs0 (hw2.fine hb)
      obtain ⟨P2, vs, ds2, hd2, hp2, hs2, hst2, hv2⟩ := hback2 P1 ds1 hs1 hb
      refine ⟨P2, (k, w) :: vs, ds2, ?_, ?_, hs2, hst1.trans hst2, ?_⟩
      · intro d suf hh hnv
        obtain ⟨hh1, hh2⟩ := Here.uncons (b := krest ++ (tg.byte :: rest ++ bs)) hh
        have hh3 := hh2.right
        obtain ⟨hh4, hh5⟩ := Here.uncons (b := rest ++ bs) hh3
        refine ⟨kt, kv, raw, { ds with pos := ds.pos + 1 + krest.length, calls := ds.calls + 1 }, tg, ds1,
          hkt, readAnyTag_here hh (startTag.not_padding (keyTag_start hkt)), ?_, hck, hnk, ?_, ?_, ?_⟩
        · exact hkd d { ds with pos := ds.pos + 1 } _ hh2.left
        · exact readAnyTag_here hh3 (startTag.not_padding ht)
        · exact hd1 d (bs ++ suf) hh5.left (hcl _ hnv)
        · refine hd2 d suf ?_ hnv
          have := hh5.right
          rw [hp1]
          exact this
      · rw [hp2, hp1]; simp; omega
      · exact .cons ⟨rfl, SameVal.mono hst2.mono hv1⟩ hv2

/-! ## Reading -/

theorem normaliseKey_idx (fs : F64 → Str) {n : Nat} (h : n < 2 ^ 32 - 1) :
    normaliseKey fs (.int n) = .ok (.idx n) := by
  have hm : 0 ≤ (n : Int) ∧ (n : Int) < (maxArrayLength : Int) := by
    unfold maxArrayLength; omega
  rw [normaliseKey, normaliseInt, if_pos hm]
  simp

theorem putProp_ok {py : PyEnv} {o o' : JSObj Val} {raw : RawKey} {k : PKey} {v : Val}
    (hk : normaliseKey py.floatStr raw = .ok k) (h : o.setitem k v.toElem = (o', none)) :
    putProp py o raw v = RM.pure o' := by
  unfold putProp
  rw [hk]
  simp only
  rw [h]

theorem JSObj.update_cons {α : Type} {o o' : JSObj α} {k : PKey} {v : Option α} {t}
    (h : o.update ((k, v) :: t) = (o', none)) :
    ∃ o1, o.setitem k v = (o1, none) ∧ o1.update t = (o', none) := by
  unfold JSObj.update at h
  split at h
  · rename_i o1 h1
    exact ⟨o1, h1, h⟩
  · simp at h

/-- The values as array elements, with their indexes. -/
def indexed (vs : List Val) (i : Nat) : List (PKey × Option Val) :=
  ((vs.map Val.toElem).zipIdx i).map (fun e => (.idx e.2, e.1))

theorem elemsLoop_run {env : DEnv} {dec : Tag → RM Val} {d : Bytes} (vs : List Val) :
    ∀ (s s' : DS) (i : Nat) (o o' : JSObj Val), ReadsVals dec d s vs s' →
    o.update (indexed vs i) = (o', none) → i + vs.length ≤ 2 ^ 32 - 1 →
    elemsLoop env dec vs.length i o d s = .ok (o', s') := by
  induction vs with
  | nil =>
    intro s s' i o o' h hu _
    simp only [ReadsVals] at h
    simp only [indexed, List.map_nil, List.zipIdx_nil, JSObj.update, Prod.mk.injEq, and_true] at hu
    subst h hu
    rfl
  | cons v t ih =>
    intro s s' i o o' h hu hi
    obtain ⟨tg, s1, _, h1, h2, h3⟩ := h
    simp only [List.length_cons] at hi
    obtain ⟨o1, h4, h5⟩ := JSObj.update_cons (t := indexed t (i + 1)) hu
    have hstep : elemsLoop env dec (t.length + 1) i o
        = (decodeNext dec >>= fun v => putProp env.py o (.int i) v >>= fun o' =>
            elemsLoop env dec t.length (i + 1) o') := rfl
    rw [List.length_cons, hstep, RM.bind_ok (decodeNext_of h1 h2),
      putProp_ok (normaliseKey_idx _ (by omega)) h4]
    exact ih s1 s' (i + 1) o1 o' h3 h5 (by omega)

/-- The assignments of properties as they are read. -/
def assignVals (l : List (PKey × Val)) : List (PKey × Option Val) := l.map (fun e => (e.1, e.2.toElem))

theorem propsLoop_run {env : DEnv} {dec : Tag → RM Val} {d : Bytes} {endTag : Tag}
    (he : endTag ∉ jsObjectKeyTags) (l : List (PKey × Val)) :
    ∀ (s s' : DS) (f c : Nat) (o o' : JSObj Val), ReadsProps env.py.floatStr dec d s l s' →
    o.update (assignVals l) = (o', none) → l.length < f →
    readAnyTag d s'.pos = .ok (endTag, s'.pos + 1) →
    propsLoop env dec endTag f o c d s = .ok ((o', c + l.length), { s' with pos := s'.pos + 1 }) := by
  induction l with
  | nil =>
    intro s s' f c o o' h hu hf hend
    simp only [ReadsProps] at h
    simp only [assignVals, List.map_nil, JSObj.update, Prod.mk.injEq, and_true] at hu
    subst h hu
    obtain ⟨f, rfl⟩ : ∃ g, f = g + 1 := ⟨f - 1, by simp at hf; omega⟩
    unfold propsLoop
    rw [RM.bind_ok (RM.lift_ok hend), if_neg (by simpa using he), if_pos rfl]
    rfl
  | cons e t ih =>
    obtain ⟨k, v⟩ := e
    intro s s' f c o o' h hu hf hend
    obtain ⟨f, rfl⟩ : ∃ g, f = g + 1 := ⟨f - 1, by simp at hf; omega⟩
    simp only [List.length_cons] at hf
    obtain ⟨tg, kv, raw, s1, tg', s2, h1, h2, h3, h4, h5, h6, h7, h8⟩ := h
    obtain ⟨o1, h9, h10⟩ := JSObj.update_cons (t := assignVals t) hu
    have hstep : propsLoop env dec endTag (f + 1) o c
        = (RM.lift readAnyTag >>= fun t => if jsObjectKeyTags.contains t then (do
            let k ← dec t
            let key ← checkKey k
            let v ← decodeNext dec
            let o' ← putProp env.py o key v
            propsLoop env dec endTag f o' (c + 1))
          else if t = endTag then pure (o, c) else RM.fail .decode) := by
      rw [propsLoop]
    rw [hstep, RM.bind_ok (RM.lift_ok h2), if_pos (by simpa using h1), RM.bind_ok h3, h4,
      RM.bind_ok (RM.pure_apply' _ _ _), RM.bind_ok (decodeNext_of h6 h7), putProp_ok h5 h9,
      RM.bind_ok (RM.pure_apply' _ _ _)]
    rw [ih s2 s' f (c + 1) o1 o' h8 h10 (by omega) hend]
    simp only [List.length_cons, Except.ok.injEq, Prod.mk.injEq, true_and, and_true]
    omega

theorem JSMap.update_cons {β : Type} {m m' : JSMap β} {k : Val} {v : β} {t}
    (h : m.update ((k, v) :: t) = (m', none)) :
    ∃ m1, m.setitem k v = (m1, none) ∧ m1.update t = (m', none) := by
  unfold JSMap.update at h
  split at h
  · simp at h
  · rename_i o1 h1
    exact ⟨o1, h1, h⟩

theorem JSSet.ior_cons {m m' : JSSet} {v : Val} {t}
    (h : m.ior (v :: t) = (m', none)) :
    ∃ m1, m.add v = (m1, none) ∧ m1.ior t = (m', none) := by
  unfold JSSet.ior at h
  split at h
  · simp at h
  · rename_i o1 h1
    exact ⟨o1, h1, h⟩

theorem mapLoop_run {dec : Tag → RM Val} {d : Bytes} (ps : List (Val × Val)) :
    ∀ (s s' : DS) (f c : Nat) (m m' : JSMap Val),
    ReadsVals dec d s (ps.flatMap (fun e => [e.1, e.2])) s' →
    m.update ps = (m', none) → ps.length < f →
    readAnyTag d s'.pos = .ok (.kEndJSMap, s'.pos + 1) →
    mapLoop dec f m c d s = .ok ((m', c + 2 * ps.length), { s' with pos := s'.pos + 1 }) := by
  induction ps with
  | nil =>
    intro s s' f c o o' h hu hf hend
    simp only [List.flatMap_nil, ReadsVals] at h
    simp only [JSMap.update, Prod.mk.injEq, and_true] at hu
    subst h hu
    obtain ⟨f, rfl⟩ : ∃ g, f = g + 1 := ⟨f - 1, by simp at hf; omega⟩
    unfold mapLoop
    rw [RM.bind_ok (RM.lift_ok hend), if_pos rfl]
    rfl
  | cons e t ih =>
    obtain ⟨k, v⟩ := e
    intro s s' f c o o' h hu hf hend
    obtain ⟨f, rfl⟩ : ∃ g, f = g + 1 := ⟨f - 1, by simp at hf; omega⟩
    simp only [List.length_cons] at hf
    obtain ⟨tg, s1, h1, h2, h3, tg', s2, h4, h5, h6, h7⟩ := h
    obtain ⟨o1, h9, h10⟩ := JSMap.update_cons hu
    have hne : tg ≠ .kEndJSMap := by rintro rfl; simp [startTag] at h1
    have hput : putEntry o k v = RM.pure o1 := by unfold putEntry; rw [h9]
    have hstep : mapLoop dec (f + 1) o c
        = (RM.lift readAnyTag >>= fun t => if t = .kEndJSMap then pure (o, c) else (do
            let k ← dec t
            let v ← decodeNext dec
            let o' ← putEntry o k v
            mapLoop dec f o' (c + 2))) := by
      rw [mapLoop]
    rw [hstep, RM.bind_ok (RM.lift_ok h2), if_neg hne, RM.bind_ok h3,
      RM.bind_ok (decodeNext_of h5 h6), hput, RM.bind_ok (RM.pure_apply' _ _ _)]
    rw [ih s2 s' f (c + 2) o1 o' h7 h10 (by omega) hend]
    simp only [List.length_cons, Except.ok.injEq, Prod.mk.injEq, true_and, and_true]
    omega

theorem setLoop_run {dec : Tag → RM Val} {d : Bytes} (vs : List Val) :
    ∀ (s s' : DS) (f c : Nat) (m m' : JSSet),
    ReadsVals dec d s vs s' → m.ior vs = (m', none) → vs.length < f →
    readAnyTag d s'.pos = .ok (.kEndJSSet, s'.pos + 1) →
    setLoop dec f m c d s = .ok ((m', c + vs.length), { s' with pos := s'.pos + 1 }) := by
  induction vs with
  | nil =>
    intro s s' f c o o' h hu hf hend
    simp only [ReadsVals] at h
    simp only [JSSet.ior, Prod.mk.injEq, and_true] at hu
    subst h hu
    obtain ⟨f, rfl⟩ : ∃ g, f = g + 1 := ⟨f - 1, by simp at hf; omega⟩
    unfold setLoop
    rw [RM.bind_ok (RM.lift_ok hend), if_pos rfl]
    rfl
  | cons v t ih =>
    intro s s' f c o o' h hu hf hend
    obtain ⟨f, rfl⟩ : ∃ g, f = g + 1 := ⟨f - 1, by simp at hf; omega⟩
    simp only [List.length_cons] at hf
    obtain ⟨tg, s1, h1, h2, h3, h7⟩ := h
    obtain ⟨o1, h9, h10⟩ := JSSet.ior_cons hu
    have hne : tg ≠ .kEndJSSet := by rintro rfl; simp [startTag] at h1
    have hput : putMember o v = RM.pure o1 := by unfold putMember; rw [h9]
    have hstep : setLoop dec (f + 1) o c
        = (RM.lift readAnyTag >>= fun t => if t = .kEndJSSet then pure (o, c) else (do
            let v ← dec t
            let o' ← putMember o v
            setLoop dec f o' (c + 1))) := by
      rw [setLoop]
    rw [hstep, RM.bind_ok (RM.lift_ok h2), if_neg hne, RM.bind_ok h3, hput,
      RM.bind_ok (RM.pure_apply' _ _ _)]
    rw [ih s1 s' f (c + 1) o1 o' h7 h10 (by omega) hend]
    simp only [List.length_cons, Except.ok.injEq, Prod.mk.injEq, true_and, and_true]
    omega

/-! ## Storing entries -/

theorem JSMap.update_ok (ps : List (Val × Val)) : ∀ m : JSMap Val, m.Inv →
    (∀ e ∈ ps, ¬ TooBig e.1) → ∃ m' : JSMap Val, m.update ps = (m', none) ∧ m'.Inv ∧
      JSMap.items m' = ps.foldl (fun l e => mapStore e.1 e.2 l) (JSMap.items m) := by
  induction ps with
  | nil => intro m hm _; exact ⟨m, rfl, hm, rfl⟩
  | cons e t ih =>
    obtain ⟨k, v⟩ := e
    intro m hm hb
    obtain ⟨key, hk⟩ := svz_ok_of k (hb (k, v) (by simp))
    have h1 := KeyedInv.set hm (k, v) key hk
    obtain ⟨m', h2, h3, h4⟩ := ih (Dict.set m key (k, v)) h1 (fun e he => hb e (by simp [he]))
    refine ⟨m', ?_, h3, ?_⟩
    · rw [JSMap.update, JSMap.setitem, hk]
      exact h2
    · rw [h4, JSMap.store_eq m hm k v key hk]; rfl

theorem JSSet.ior_ok (ps : List Val) : ∀ m : JSSet, m.Inv → (∀ e ∈ ps, ¬ TooBig e) →
    ∃ m' : JSSet, m.ior ps = (m', none) ∧ m'.Inv ∧
      JSSet.members m' = ps.foldl (fun l v => setStore v l) (JSSet.members m) := by
  induction ps with
  | nil => intro m hm _; exact ⟨m, rfl, hm, rfl⟩
  | cons v t ih =>
    intro m hm hb
    obtain ⟨key, hk⟩ := svz_ok_of v (hb v (by simp))
    have h1 := KeyedInv.set hm v key hk
    obtain ⟨m', h2, h3, h4⟩ := ih (Dict.set m key v) h1 (fun e he => hb e (by simp [he]))
    refine ⟨m', ?_, h3, ?_⟩
    · rw [JSSet.ior, JSSet.add, hk]
      exact h2
    · rw [h4, JSSet.store_eq m hm v key hk]; rfl

end V8
