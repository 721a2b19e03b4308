import Verif.Proofs.RoundTripContainer

/-! Helper lemmas for the round trip: objects and arrays. -/

namespace V8
open Spec

theorem readProps_run {env : DEnv} {dec : Tag → RM Val} {d : Bytes} {endTag : Tag}
    (he : endTag ∉ jsObjectKeyTags) (hep : endTag ≠ .kPadding) {l : List (PKey × Val)} {s s' : DS} {o o' : JSObj Val}
    {suf : Bytes} (hr : ReadsProps env.py.floatStr dec d s l s') (hu : o.update (assignVals l) = (o', none))
    (hf : l.length < d.length - s.pos + 1)
    (hh : Here d s'.pos (endTag.byte :: writeVarint l.length) suf) :
    readProps env dec endTag o d s
      = .ok (o', { s' with pos := s'.pos + 1 + (writeVarint l.length).length }) := by
  have hloop := propsLoop_run he l s s' (d.length - s.pos + 1) 0 o o' hr hu hf (readAnyTag_here hh hep)
  obtain ⟨hh3, hh4⟩ := hh.uncons
  unfold readProps
  rw [RM.bind_ok (loopFuel_run _ _), RM.bind_ok hloop,
    RM.bind_ok (Here.lift (s := { s' with pos := s'.pos + 1 }) hh4 (readVarint_reads _))]
  simp only [Nat.zero_add]
  rw [RM.bind_ok (checkCount_run _ _ _)]
  rfl

theorem assignVals_eq {l : List (PKey × Val)} (h : ∀ e ∈ l, e.2 ≠ .hole) : assignVals l = assigns l := by
  unfold assignVals assigns
  refine List.map_congr_left fun e he => ?_
  rw [toElem_ne (h e he)]

theorem SameItems.not_hole {env : EEnv} {z : F64} {P : Val → Val → Prop} {H : Heap} (hp : Pairs env z P H)
    {l l' : List (PKey × Val)} (h : SameItems env z P l l') (hl : ∀ e ∈ l, e.2 ≠ .hole) : ∀ e ∈ l', e.2 ≠ .hole := by
  intro e he
  obtain ⟨a, ha, _, h2⟩ := Forall₂.mem_right h he
  exact SameVal.not_hole hp h2 (hl a ha)

theorem SameItems.keys {env : EEnv} {z : F64} {P : Val → Val → Prop} {l l' : List (PKey × Val)} (h : SameItems env z P l l') :
    l'.map (·.1) = l.map (·.1) := by
  induction h with
  | nil => rfl
  | cons h1 _ ih => simp only [List.map_cons, ih, h1.1]

/-- Items with the same keys have the same shape. -/
theorem ItemsShape.of_keys {l l' : List (PKey × Val)} (h : ItemsShape l) (hk : l'.map (·.1) = l.map (·.1)) :
    ItemsShape l' := by
  obtain ⟨es, ps, rfl, h1, h2, h3⟩ := h
  have hsplit : ∀ (es : List (Nat × Val)) (l' : List (PKey × Val)),
      l'.map (·.1) = List.map (fun e : PKey × Val => e.1) (es.map (fun e : Nat × Val => ((.idx e.1, e.2) : PKey × Val)) ++
        ps.map (fun e : Str × Val => ((.name e.1, e.2) : PKey × Val))) →
      ∃ (es' : List (Nat × Val)) (ps' : Dict Str Val), 
        l' = es'.map (fun e : Nat × Val => ((.idx e.1, e.2) : PKey × Val)) ++
          ps'.map (fun e : Str × Val => ((.name e.1, e.2) : PKey × Val)) ∧
        es'.map (·.1) = es.map (·.1) ∧ ps'.map (·.1) = ps.map (·.1) := by
    intro es
    induction es with
    | nil =>
      intro l' hl
      simp only [List.map_nil, List.nil_append, List.map_map] at hl
      clear h1 h2 h3 hk
      induction ps generalizing l' with
      | nil =>
        simp only [List.map_nil, List.map_eq_nil_iff] at hl
        exact ⟨[], [], by simp [hl], rfl, rfl⟩
      | cons p t ih =>
        cases l' with
        | nil => simp at hl
        | cons e l' =>
          simp only [List.map_cons, List.cons.injEq, Function.comp] at hl
          obtain ⟨es', ps', h4, h5, h6⟩ := ih l' (by simpa [Function.comp_def] using hl.2)
          simp only [List.map_nil, List.map_eq_nil_iff] at h5
          subst h5
          refine ⟨[], (p.1, e.2) :: ps', ?_, rfl, ?_⟩
          · rw [h4]
            simp only [List.map_nil, List.nil_append, List.map_cons, List.cons.injEq, and_true]
            exact Prod.ext hl.1 rfl
          · simp only [List.map_cons, h6]
    | cons p t ih =>
      intro l' hl
      cases l' with
      | nil => simp at hl
      | cons e l' =>
        simp only [List.map_cons, List.cons_append, List.cons.injEq] at hl
        obtain ⟨es', ps', h4, h5, h6⟩ := ih l' hl.2
        refine ⟨(p.1, e.2) :: es', ps', ?_, ?_, h6⟩
        · rw [h4]
          simp only [List.map_cons, List.cons_append, List.cons.injEq, and_true]
          exact Prod.ext hl.1 rfl
        · simp only [List.map_cons, h5]
  obtain ⟨es', ps', h4, h5, h6⟩ := hsplit es l' hk
  refine ⟨es', ps', h4, ?_, ?_, ?_⟩
  · have := List.pairwise_map.mp (show (es'.map (·.1)).Pairwise (· < ·) by rw [h5]; exact List.pairwise_map.mpr h1)
    exact this
  · have : Dict.keys ps' = Dict.keys ps := h6
    rw [this]; exact h2
  · intro e he
    have : e.1 ∈ es.map (·.1) := by rw [← h5]; exact List.mem_map_of_mem he
    obtain ⟨a, ha, hae⟩ := List.mem_map.mp this
    rw [← hae]; exact h3 a ha

theorem propVals_eq (d : Dict Str Val) : propVals d = itemVals (d.map (fun e => (.name e.1, e.2))) := by
  unfold propVals itemVals
  rw [List.map_map]
  rfl

/-- The keys of an object are written so that they read back. -/
theorem ObjOK.keys {env : EEnv} {denv : DEnv} (hpy : denv.py = env.py) {o : JSObj Val} (h : ObjOK env o) (f F : Nat) :
    ∀ e ∈ o.items, KeyBack denv.py.floatStr (encodeObject env f) (decodeTag denv (F + 1)) e.1 := by
  intro e he
  apply key_back
  rw [JSObj.items_eq h.inv] at he
  rcases List.mem_append.mp he with he | he
  · obtain ⟨a, ha, rfl⟩ := List.mem_map.mp he
    simp only
    rw [mem_itemsOf (v := a.2) (k := a.1)] at ha
    by_contra hk
    have := h.len
    rw [List.getElem?_eq_none (by omega)] at ha
    simp at ha
  · obtain ⟨a, ha, rfl⟩ := List.mem_map.mp he
    simp only
    rw [hpy]
    exact h.names a ha

/-! ## JSObject -/

/-- What an object's contents are read with. -/
def objBody (env : DEnv) (rec : Tag → RM Val) : RM Node := do
  let o ← readProps env rec .kEndJSObject JSObj.empty
  return .jsobj o

theorem decodeJSObject_body (env : DEnv) (rec : Tag → RM Val) :
    decodeJSObject env rec = (alloc (.jsobj JSObj.empty) >>= fun i => recordD (.obj i) >>= fun _ =>
      objBody env rec >>= fun n' => setNode i n' >>= fun _ => (pure (.obj i) : RM Val)) := by
  unfold decodeJSObject objBody
  simp only [RM.bind_assoc]
  rfl

theorem empty_items : itemsOf (JSObj.empty : JSObj Val).array.abs = [] := by
  simp [JSObj.empty, Arr.abs, itemsOf]

theorem writeJSObject_back {env : EEnv} {z : F64} {denv : DEnv} {f F : Nat} (hpy : denv.py = env.py)
    {o : JSObj Val} {i : Id} {ws ws' : WS} (hrec : RecBack env z (encodeObject env f) (decodeTag denv (F + 1)))
    (h : writeJSObject (encodeObject env f) (itemVals o.items) (.obj i) ws = .ok ws') (ha : ws.allowed = none)
    (hv : ws.log.contains (.obj i) = false) (hi : env.heap[i]? = some (.jsobj o)) (ho : ObjOK env o) :
    Obl env z (decodeTag denv (F + 1 + 1)) (.obj i) ws ws' := by
  obtain ⟨w1, h1, h⟩ := Except.bind_eq_ok h
  obtain ⟨w2, h2, h⟩ := Except.bind_eq_ok h
  obtain ⟨w3, h3, h⟩ := Except.bind_eq_ok h
  obtain ⟨w4, h4, h⟩ := Except.bind_eq_ok h
  have hall : w2.allowed = none := by
    obtain ⟨e2, _⟩ := writeTag_ok h2
    rw [e2, recordRef_ok h1]; exact ha
  refine container_back (t := .kBeginJSObject) (body := objBody denv (decodeTag denv (F + 1))) rfl h1 h2 ha hv hi rfl
    (by simp) (ph := .jsobj JSObj.empty) rfl ?_ ?_
  · obtain ⟨bs, hw, hlen, hcl, hback⟩ := writeProps_back hrec o.items w2 w3 (ObjOK.keys hpy ho f F) h3 hall
    have e := end_count _ h4 h
    have hil : (itemVals o.items).length = o.items.length := by simp [itemVals]
    rw [hil] at e
    refine ⟨bs ++ Tag.kEndJSObject.byte :: writeVarint o.items.length, ?_, ?_⟩
    · refine hw.trans ?_
      rw [e]
      exact ⟨rfl, hw.allowed, _root_.id, fun _ h => h⟩
    · intro P ds hs hbad
      obtain ⟨P', l', ds', g1, g2, g3, g4, g5⟩ := hback P ds hs (by rw [e] at hbad; exact hbad)
      have hpl : l'.length = o.items.length := g5.length_eq.symm
      have hnh := SameItems.not_hole g3.pairs g5 ho.values
      obtain ⟨o', u1, u2, u3, _⟩ := update_items l'
        (ItemsShape.of_keys (JSObj.items_shape ho.inv ho.len) (SameItems.keys g5)) JSObj.empty JSObj.empty_good
        empty_items rfl
      rw [← assignVals_eq hnh] at u1
      refine ⟨P', .jsobj o', { ds' with pos := ds'.pos + 1 + (writeVarint o.items.length).length }, ?_, ?_, ?_, g4, ?_⟩
      · intro d suf hh
        have hread := g1 d (Tag.kEndJSObject.byte :: writeVarint o.items.length ++ suf) hh.left (NV.cons (by simp) _)
        have hh2 := hh.right
        rw [← g2, ← hpl] at hh2
        have hrun := readProps_run (by simp [jsObjectKeyTags]) (by simp) hread u1
          (by have := hh.len; simp only [List.length_append, List.length_cons] at this; omega) hh2
        unfold objBody
        rw [RM.bind_ok hrun, hpl]
        rfl
      · simp only [g2, List.length_append, List.length_cons]; omega
      · rw [e]; exact g3
      · refine ⟨u2.inv, ?_⟩
        rw [u3]; exact g5
  · intro d ds
    rw [decodeTag_run, ← decodeJSObject_body]
    rfl

/-! ## Dense arrays -/

/-- What a dense array's contents are read with. -/
def denseBody (env : DEnv) (rec : Tag → RM Val) : RM Node := do
  let n ← RM.lift readVarint
  let o ← elemsLoop env rec n 0 JSObj.empty
  let o ← readProps env rec .kEndDenseJSArray o
  let final ← RM.lift readVarint
  checkCount n final
  return .jsarr o

theorem decodeDense_body (env : DEnv) (rec : Tag → RM Val) :
    decodeDenseArray env rec = (alloc (.jsarr JSObj.empty) >>= fun i => recordD (.obj i) >>= fun _ =>
      denseBody env rec >>= fun n' => setNode i n' >>= fun _ => (pure (.obj i) : RM Val)) := by
  unfold decodeDenseArray denseBody
  simp only [RM.bind_assoc]
  rfl

/-- Related elements give related items. -/
theorem itemsOf_rel {R : Val → Val → Prop} {l l' : List (Option Val)}
    (h : List.Forall₂ (fun a b => (a = none ∧ b = none) ∨ ∃ x y, a = some x ∧ b = some y ∧ R x y) l l') :
    List.Forall₂ (fun a b => a.1 = b.1 ∧ R a.2 b.2) (itemsOf l) (itemsOf l') := by
  unfold itemsOf
  rw [← h.length_eq]
  have hget : ∀ k : Nat, ((l[k]?).join = none ∧ (l'[k]?).join = none) ∨
      ∃ x y, (l[k]?).join = some x ∧ (l'[k]?).join = some y ∧ R x y := by
    induction h with
    | nil => intro k; left; simp
    | cons h1 _ ih =>
      intro k
      cases k with
      | zero =>
        rcases h1 with ⟨rfl, rfl⟩ | ⟨x, y, rfl, rfl, hr⟩
        · left; simp
        · right; exact ⟨x, y, by simp, by simp, hr⟩
      | succ k => simpa using ih k
  generalize List.range l.length = ks
  induction ks with
  | nil => exact .nil
  | cons k t ih =>
    rcases hget k with ⟨h1, h2⟩ | ⟨x, y, h1, h2, hr⟩
    · simp only [List.filterMap_cons, h1, h2, Option.map_none]
      exact ih
    · simp only [List.filterMap_cons, h1, h2, Option.map_some]
      exact .cons ⟨rfl, hr⟩ ih

theorem update_props {o : JSObj Val} (ho : o.Good) (hp : o.props = []) {ps : Dict Str Val}
    (hn : ps.keys.Nodup) :
    ∃ o', o.update (assigns (ps.map (fun e => (PKey.name e.1, e.2)))) = (o', none) ∧ o'.Good ∧
      o'.array = o.array ∧ o'.props = ps := by
  obtain ⟨o', h1, h2, h3, h4⟩ := update_names ps o ho (by rw [hp]; simpa using hn)
  exact ⟨o', h1, h2, h3, by rw [h4, hp]; simp⟩

/-- Items that all have names. -/
theorem names_of_keys {ps : Dict Str Val} : ∀ {l' : List (PKey × Val)},
    l'.map (·.1) = (ps.map (fun e => ((.name e.1, e.2) : PKey × Val))).map (·.1) →
    ∃ ps' : Dict Str Val, l' = ps'.map (fun e => (.name e.1, e.2)) ∧ ps'.keys = ps.keys := by
  induction ps with
  | nil =>
    intro l' h
    simp only [List.map_nil, List.map_eq_nil_iff] at h
    exact ⟨[], by simp [h], rfl⟩
  | cons p t ih =>
    intro l' h
    cases l' with
    | nil => simp at h
    | cons e l' =>
      simp only [List.map_cons, List.cons.injEq] at h
      obtain ⟨ps', h1, h2⟩ := ih h.2
      refine ⟨(p.1, e.2) :: ps', ?_, ?_⟩
      · rw [h1]
        simp only [List.map_cons, List.cons.injEq, and_true]
        exact Prod.ext h.1 rfl
      · simp only [Dict.keys, List.map_cons] at h2 ⊢
        rw [h2]

theorem writeDense_back {env : EEnv} {z : F64} {denv : DEnv} {f F : Nat}
    {els : List Val} {props : Dict Str Val} {i : Id} {n : Node} {ws ws' : WS}
    (hrec : RecBack env z (encodeObject env f) (decodeTag denv (F + 1)))
    (h : writeDenseArray (encodeObject env f) els (propVals props) (.obj i) ws = .ok ws') (ha : ws.allowed = none)
    (hv : ws.log.contains (.obj i) = false) (hi : env.heap[i]? = some n) (hn : n.isBuf = false)
    (hnp : ∀ p, n ≠ .primObj p) (hlen : els.length ≤ 2 ^ 32 - 1) (hnod : props.keys.Nodup)
    (hnames : ∀ e ∈ props, normaliseKey denv.py.floatStr (.str e.1) = .ok (.name e.1))
    (hvals : ∀ e ∈ props, e.2 ≠ .hole)
    (hcont : ∀ P H vs (ps' : Dict Str Val) (o' : JSObj Val), Pairs env z P H → List.Forall₂ (SameVal env z P) els vs →
      SameItems env z P (props.map (fun e => (.name e.1, e.2))) (ps'.map (fun e => (.name e.1, e.2))) →
      o'.Good → o'.array.abs = vs.map Val.toElem → o'.props = ps' → SameContent env z P n (.jsarr o')) :
    Obl env z (decodeTag denv (F + 1 + 1)) (.obj i) ws ws' := by
  obtain ⟨w1, h1, h⟩ := Except.bind_eq_ok h
  obtain ⟨w2, h2, h⟩ := Except.bind_eq_ok h
  obtain ⟨w3, h3, h⟩ := Except.bind_eq_ok h
  obtain ⟨w4, h4, h⟩ := Except.bind_eq_ok h
  obtain ⟨w5, h5, h⟩ := Except.bind_eq_ok h
  obtain ⟨w6, h6, h⟩ := Except.bind_eq_ok h
  obtain ⟨w7, h7, h⟩ := Except.bind_eq_ok h
  have hall : w2.allowed = none := by
    obtain ⟨e2, _⟩ := writeTag_ok h2
    rw [e2, recordRef_ok h1]; exact ha
  refine container_back (t := .kBeginDenseJSArray) (body := denseBody denv (decodeTag denv (F + 1))) rfl h1 h2 ha hv hi
    hn hnp (ph := .jsarr JSObj.empty) rfl ?_ ?_
  · have e3 := emit_ok h3
    obtain ⟨bs, hw, hbl, hcl, hback⟩ := writeVals_back hrec els w3 w4 h4 (by rw [e3]; exact hall)
    rw [propVals_eq] at h5
    obtain ⟨cs, hwc, hcl2, hcc, hbackc⟩ := writeProps_back (fs := denv.py.floatStr) hrec _ w4 w5 (by
      intro e he
      apply key_back
      obtain ⟨a, ha', rfl⟩ := List.mem_map.mp he
      exact hnames a ha') h5 hw.allowed
    have e7 := end_count _ h6 h7
    have e8 := emit_ok h
    have hpl : (propVals props).length = props.length := by simp [propVals]
    rw [hpl] at e7
    have e : ws' = { w5 with data := w5.data ++ (Tag.kEndDenseJSArray.byte :: writeVarint props.length ++ writeVarint els.length) } := by
      rw [e8, e7]; simp
    refine ⟨writeVarint els.length ++ (bs ++ (cs ++ (Tag.kEndDenseJSArray.byte :: writeVarint props.length ++ writeVarint els.length))), ?_, ?_⟩
    · refine Wrote.trans (b := w3) ?_ (hw.trans (hwc.trans ?_))
      · rw [e3]; exact ⟨rfl, hall, _root_.id, fun _ h => h⟩
      · rw [e]; exact ⟨rfl, hwc.allowed, _root_.id, fun _ h => h⟩
    · intro P ds hs hbad
      have hbad5 : Fine z w5 := by rw [e] at hbad; exact hbad
      obtain ⟨P1, vs, ds1, g1, g2, g3, g4, g5⟩ := hback P { ds with pos := ds.pos + (writeVarint els.length).length }
        (by rw [e3]; exact hs) (hwc.fine hbad5)
      obtain ⟨P2, l', ds2, k1, k2, k3, k4, k5⟩ := hbackc P1 ds1 g3 hbad5
      have hvl : vs.length = els.length := g5.length_eq.symm
      have hll : l'.length = props.length := by rw [← k5.length_eq]; simp
      have hnh := SameItems.not_hole k3.pairs k5 (by
        intro e he
        obtain ⟨a, ha', rfl⟩ := List.mem_map.mp he
        exact hvals a ha')
      obtain ⟨ps', hps', hkeys⟩ := names_of_keys (SameItems.keys k5)
      obtain ⟨o1, u1, u2, u3, u4⟩ := update_elements (vs.map Val.toElem) JSObj.empty JSObj.empty_good
        (by simp only [JSObj.empty, Arr.abs, List.length_nil, List.length_map]; omega)
      obtain ⟨o2, v1, v2, v3, v4⟩ := update_props (ps := ps') u2 u4 (by rw [hkeys]; exact hnod)
      rw [← hps', ← assignVals_eq hnh] at v1
      refine ⟨P2, .jsarr o2, { ds2 with pos := ds2.pos + 1 + (writeVarint props.length).length + (writeVarint els.length).length },
        ?_, ?_, ?_, g4.trans k4, ?_⟩
      · intro d suf hh
        have hh1 := hh.right
        have hh2 := hh1.right
        have hh3 := hh2.right
        have hread := g1 d _ hh1.left (by
          rw [List.append_assoc]
          exact hcc _ (NV.cons (t := .kEndDenseJSArray) (by simp) _))
        rw [← g2] at hh2 hh3
        rw [← k2] at hh3
        have hread2 := k1 d _ hh2.left (NV.cons (t := .kEndDenseJSArray) (by simp) _)
        have hel := elemsLoop_run (env := denv) vs _ ds1 0 JSObj.empty o1 hread u1 (by omega)
        rw [← hll] at hh3
        have hrun := readProps_run (by simp [jsObjectKeyTags]) (by simp) hread2 v1
          (by
            have := hh2.left.len
            simp only [List.length_map] at hcl2
            omega) (Here.left (a := Tag.kEndDenseJSArray.byte :: writeVarint l'.length) hh3)
        have hh4 := Here.right (a := Tag.kEndDenseJSArray.byte :: writeVarint l'.length) hh3
        unfold denseBody
        rw [← hvl] at hel hh4 hh
        rw [← hvl, RM.bind_ok (Here.lift hh.left (readVarint_reads _)), RM.bind_ok hel, RM.bind_ok hrun]
        have hh5 : Here d (ds2.pos + 1 + (writeVarint l'.length).length) (writeVarint vs.length) suf := by
          simp only [List.length_cons] at hh4
          have : ds2.pos + 1 + (writeVarint l'.length).length = ds2.pos + ((writeVarint l'.length).length + 1) := by omega
          rw [this]; exact hh4
        rw [RM.bind_ok (Here.lift (s := { ds2 with pos := ds2.pos + 1 + (writeVarint l'.length).length }) hh5 (readVarint_reads _)),
          RM.bind_ok (checkCount_run _ _ _), hll]
        rfl
      · simp only [g2, k2, List.length_append, List.length_cons]; omega
      · rw [e]; exact k3
      · refine hcont P2 ds2.heap vs ps' o2 k3.pairs (Forall₂.mono' (fun _ _ => SameVal.mono k4.mono) g5) ?_ v2 ?_ v4
        · rw [← hps']; exact k5
        · rw [v3, u3]; simp [JSObj.empty, Arr.abs]
  · intro d ds
    rw [decodeTag_run, ← decodeDense_body]
    rfl

theorem ObjOK.elem {env : EEnv} {o : JSObj Val} (h : ObjOK env o) {v : Val} (hv : some v ∈ o.array.abs) :
    v ≠ .hole := by
  obtain ⟨k, hk⟩ := List.mem_iff_getElem?.mp hv
  refine h.values (.idx k, v) ?_
  rw [JSObj.items_eq h.inv, List.mem_append]
  left
  exact List.mem_map.mpr ⟨(k, v), (mem_itemsOf _ _ _).2 (by rw [hk]; rfl), rfl⟩

/-- Related elements of two arrays. -/
theorem elems_rel {env : EEnv} {z : F64} {P : Val → Val → Prop} {H : Heap} (hp : Pairs env z P H) :
    ∀ {l : List (Option Val)} {vs : List Val}, (∀ v, some v ∈ l → v ≠ .hole) →
    List.Forall₂ (SameVal env z P) (l.map elemVal) vs →
    List.Forall₂ (fun a b => (a = none ∧ b = none) ∨ ∃ x y, a = some x ∧ b = some y ∧ SameVal env z P x y)
      l (vs.map Val.toElem)
  | [], vs, _, h => by
    simp only [List.map_nil, List.forall₂_nil_left_iff] at h
    subst h; exact .nil
  | a :: l, vs, hl, h => by
    simp only [List.map_cons] at h
    cases h with
    | cons h1 h2 =>
      refine .cons ?_ (elems_rel hp (fun v hv => hl v (List.mem_cons_of_mem _ hv)) h2)
      cases a with
      | none =>
        left
        rw [SameVal.of_hole h1]
        exact ⟨rfl, rfl⟩
      | some x =>
        right
        have hx := hl x List.mem_cons_self
        exact ⟨x, _, rfl, toElem_ne (SameVal.not_hole hp h1 hx), h1⟩

theorem itemsOf_map {R : Val → Val → Prop} {l l' : List (Nat × Val)}
    (h : List.Forall₂ (fun a b => a.1 = b.1 ∧ R a.2 b.2) l l') :
    List.Forall₂ (fun a b => a.1 = b.1 ∧ R a.2 b.2) (l.map (fun e => ((.idx e.1, e.2) : PKey × Val)))
      (l'.map (fun e => (.idx e.1, e.2))) := by
  induction h with
  | nil => exact .nil
  | cons h1 _ ih => exact .cons ⟨by simp only [h1.1], h1.2⟩ ih

theorem Forall₂.append {α β : Type} {R : α → β → Prop} {a b : List α} {c d : List β}
    (h1 : List.Forall₂ R a c) (h2 : List.Forall₂ R b d) : List.Forall₂ R (a ++ b) (c ++ d) := by
  induction h1 with
  | nil => exact h2
  | cons h _ ih => exact .cons h ih

theorem dense_back {env : EEnv} {z : F64} {denv : DEnv} {f F : Nat} (hpy : denv.py = env.py)
    {o : JSObj Val} {i : Id} {ws ws' : WS} (hrec : RecBack env z (encodeObject env f) (decodeTag denv (F + 1)))
    (h : writeDenseArray (encodeObject env f) (o.array.toList.map elemVal) (propVals o.props) (.obj i) ws = .ok ws')
    (ha : ws.allowed = none) (hv : ws.log.contains (.obj i) = false) (hi : env.heap[i]? = some (.jsarr o))
    (ho : ObjOK env o) : Obl env z (decodeTag denv (F + 1 + 1)) (.obj i) ws ws' := by
  have hl := Arr.toList_eq ho.inv.arr
  rw [hl] at h
  refine writeDense_back hrec h ha hv hi rfl (by simp) (by simpa using ho.len) ho.inv.names
    (by rw [hpy]; exact ho.names) ?_ ?_
  · intro e he
    refine ho.values (.name e.1, e.2) ?_
    rw [JSObj.items_eq ho.inv, List.mem_append]
    right
    exact List.mem_map.mpr ⟨e, he, rfl⟩
  · intro P H vs ps' o' hp hvs hps hg habs hprops
    have hrel := elems_rel hp (fun v => ObjOK.elem ho) hvs
    refine ⟨hg.inv, ?_, ?_⟩
    · rw [Arr.len_eq ho.inv.arr, Arr.len_eq hg.inv.arr, habs, hrel.length_eq]
    · rw [JSObj.items_eq ho.inv, JSObj.items_eq hg.inv, habs, hprops]
      exact Forall₂.append (itemsOf_map (itemsOf_rel hrel)) hps

theorem pylist_back {env : EEnv} {z : F64} {denv : DEnv} {f F : Nat}
    {els : List Val} {i : Id} {ws ws' : WS} (hrec : RecBack env z (encodeObject env f) (decodeTag denv (F + 1)))
    (h : writeDenseArray (encodeObject env f) els [] (.obj i) ws = .ok ws')
    (ha : ws.allowed = none) (hv : ws.log.contains (.obj i) = false) (hi : env.heap[i]? = some (.pylist els))
    (ho : els.length ≤ 2 ^ 32 - 1) : Obl env z (decodeTag denv (F + 1 + 1)) (.obj i) ws ws' := by
  refine writeDense_back (props := []) hrec h ha hv hi rfl (by simp) ho (by simp [Dict.keys]) (by simp) (by simp) ?_
  intro P H vs ps' o' hp hvs hps hg habs hprops
  refine ⟨hg.inv, ?_, ?_⟩
  · rw [Arr.toList_eq hg.inv.arr, habs, List.map_map]
    have : (elemVal ∘ Val.toElem) = id := funext elemVal_toElem
    rw [this, List.map_id]
    exact hvs
  · rw [hprops]
    cases ps' with
    | nil => rfl
    | cons e t => simp only [List.map_nil, List.map_cons] at hps; cases hps

/-! ## Sparse arrays -/

/-- What a sparse array's contents are read with. -/
def sparseBody (env : DEnv) (rec : Tag → RM Val) : RM Node := do
  let n ← RM.lift readVarint
  let o ← resizeTo env n JSObj.empty
  let o ← readProps env rec .kEndSparseJSArray o
  let final ← RM.lift readVarint
  checkCount n final
  return .jsarr o

theorem decodeSparse_body (env : DEnv) (rec : Tag → RM Val) :
    decodeSparseArray env rec = (alloc (.jsarr JSObj.empty) >>= fun i => recordD (.obj i) >>= fun _ =>
      sparseBody env rec >>= fun n' => setNode i n' >>= fun _ => (pure (.obj i) : RM Val)) := by
  unfold decodeSparseArray sparseBody
  simp only [RM.bind_assoc]
  rfl

theorem resizeTo_run (env : DEnv) {n : Nat} (hn : n ≤ 2 ^ 32 - 1) :
    ∃ o' : JSObj Val, resizeTo env n JSObj.empty = RM.pure o' ∧ o'.Good ∧ itemsOf o'.array.abs = [] ∧
      o'.array.abs.length = n ∧ o'.props = [] := by
  by_cases h0 : n = 0
  · subst h0
    exact ⟨JSObj.empty, rfl, JSObj.empty_good, empty_items, rfl, rfl⟩
  · have hlt : n - 1 < 2 ^ 32 - 1 := by omega
    obtain ⟨o', h1, h2⟩ := (JSObj.empty_good (α := Val)).putHole (n - 1) hlt (by simp [JSObj.lookup, JSObj.empty, Arr.abs])
    obtain ⟨_, _, _, h6, _⟩ := JSObj.setitem_spec (JSObj.empty_good (α := Val)).inv (.idx (n - 1)) hlt none
    obtain ⟨_, e2, _⟩ := ensureCapacity_spec (JSObj.empty_good (α := Val)).inv.arr (n - 1) hlt
    obtain ⟨_, _, a3⟩ := JSObj.setitem_array (JSObj.empty (α := Val)) (n - 1) none e2
    rw [h1] at h6 a3
    have h7 : o'.array.abs = List.replicate n none := by
      rw [h6]
      have h8 : (JSObj.empty : JSObj Val).array.abs = [] := rfl
      simp only [h8, List.nil_append, List.length_nil, Nat.sub_zero]
      rw [show n - 1 + 1 = n by omega]
      apply List.ext_getElem?
      intro k
      rw [List.getElem?_set]
      simp only [List.length_replicate, List.getElem?_replicate]
      split
      · rename_i hk; subst hk; simp
      · rfl
    refine ⟨o', ?_, h2, ?_, by rw [h7]; simp, a3⟩
    · unfold resizeTo
      rw [if_pos (by omega)]
      exact putProp_ok (normaliseKey_idx _ hlt) h1
    · rw [h7]
      unfold itemsOf
      rw [List.filterMap_eq_nil_iff]
      intro k hk
      simp only [List.getElem?_replicate]
      split <;> rfl

theorem sparse_back {env : EEnv} {z : F64} {denv : DEnv} {f F : Nat} (hpy : denv.py = env.py)
    {o : JSObj Val} {i : Id} {ws ws' : WS} (hrec : RecBack env z (encodeObject env f) (decodeTag denv (F + 1)))
    (h : writeSparseArray (encodeObject env f) (itemVals o.items) o.array.len (.obj i) ws = .ok ws')
    (ha : ws.allowed = none) (hv : ws.log.contains (.obj i) = false) (hi : env.heap[i]? = some (.jsarr o))
    (ho : ObjOK env o) : Obl env z (decodeTag denv (F + 1 + 1)) (.obj i) ws ws' := by
  have hlen := Arr.len_eq ho.inv.arr
  unfold writeSparseArray at h
  rw [hlen] at h
  generalize hn : o.array.abs.length = n at h hlen
  have hn32 : n ≤ 2 ^ 32 - 1 := by rw [← hn]; exact ho.len
  rw [if_neg (by simp only [maxArrayLength, not_not]; omega)] at h
  simp only [Int.toNat_natCast] at h
  obtain ⟨w1, h1, h⟩ := Except.bind_eq_ok h
  obtain ⟨w2, h2, h⟩ := Except.bind_eq_ok h
  obtain ⟨w3, h3, h⟩ := Except.bind_eq_ok h
  obtain ⟨w6, h4, h⟩ := Except.bind_eq_ok h
  obtain ⟨w4, h4, h5⟩ := Except.bind_eq_ok h4
  obtain ⟨w5, h5, h6⟩ := Except.bind_eq_ok h5
  have hall : w2.allowed = none := by
    obtain ⟨e2, _⟩ := writeTag_ok h2
    rw [e2, recordRef_ok h1]; exact ha
  refine container_back (t := .kBeginSparseJSArray) (body := sparseBody denv (decodeTag denv (F + 1))) rfl h1 h2 ha hv hi
    rfl (by simp) (ph := .jsarr JSObj.empty) rfl ?_ ?_
  · have e3 := emit_ok h3
    obtain ⟨cs, hwc, hcl2, hcc, hbackc⟩ := writeProps_back (fs := denv.py.floatStr) hrec o.items w3 w4
      (ObjOK.keys hpy ho f F) h4 (by rw [e3]; exact hall)
    have e7 := end_count _ h5 h6
    have e8 := emit_ok h
    have hil : (itemVals o.items).length = o.items.length := by simp [itemVals]
    rw [hil] at e7
    have e : ws' = { w4 with data := w4.data ++ (Tag.kEndSparseJSArray.byte :: writeVarint o.items.length ++ writeVarint n) } := by
      rw [e8, e7]; simp
    refine ⟨writeVarint n ++ (cs ++ (Tag.kEndSparseJSArray.byte :: writeVarint o.items.length ++ writeVarint n)), ?_, ?_⟩
    · refine Wrote.trans (b := w3) ?_ (hwc.trans ?_)
      · rw [e3]; exact ⟨rfl, hall, _root_.id, fun _ h => h⟩
      · rw [e]; exact ⟨rfl, hwc.allowed, _root_.id, fun _ h => h⟩
    · intro P ds hs hbad
      have hbad5 : Fine z w4 := by rw [e] at hbad; exact hbad
      obtain ⟨P2, l', ds2, k1, k2, k3, k4, k5⟩ := hbackc P { ds with pos := ds.pos + (writeVarint n).length }
        (by rw [e3]; exact hs) hbad5
      have hll : l'.length = o.items.length := k5.length_eq.symm
      have hnh := SameItems.not_hole k3.pairs k5 ho.values
      obtain ⟨o1, u1, u2, u3, u4, u5⟩ := resizeTo_run denv hn32
      obtain ⟨o2, v1, v2, v3, v4⟩ := update_items l'
        (ItemsShape.of_keys (JSObj.items_shape ho.inv ho.len) (SameItems.keys k5)) o1 u2 u3 u5
      rw [← assignVals_eq hnh] at v1
      refine ⟨P2, .jsarr o2, { ds2 with pos := ds2.pos + 1 + (writeVarint o.items.length).length + (writeVarint n).length },
        ?_, ?_, ?_, k4, ?_⟩
      · intro d suf hh
        have hh1 := hh.right
        have hh3 := hh1.right
        have hread := k1 d _ hh1.left (NV.cons (t := .kEndSparseJSArray) (by simp) _)
        rw [← k2] at hh3
        rw [← hll] at hh3
        have hrun := readProps_run (by simp [jsObjectKeyTags]) (by simp) hread v1
          (by
            have := hh1.left.len
            simp only at this ⊢
            omega) (Here.left (a := Tag.kEndSparseJSArray.byte :: writeVarint l'.length) hh3)
        have hh4 := Here.right (a := Tag.kEndSparseJSArray.byte :: writeVarint l'.length) hh3
        unfold sparseBody
        have hh5 : Here d (ds2.pos + 1 + (writeVarint l'.length).length) (writeVarint n) suf := by
          simp only [List.length_cons] at hh4
          have : ds2.pos + 1 + (writeVarint l'.length).length = ds2.pos + ((writeVarint l'.length).length + 1) := by omega
          rw [this]; exact hh4
        rw [RM.bind_ok (Here.lift hh.left (readVarint_reads _)), u1, RM.bind_ok (RM.pure_apply' _ _ _), RM.bind_ok hrun,
          RM.bind_ok (Here.lift (s := { ds2 with pos := ds2.pos + 1 + (writeVarint l'.length).length }) hh5 (readVarint_reads _)),
          RM.bind_ok (checkCount_run _ _ _), hll]
        rfl
      · simp only [k2, List.length_append, List.length_cons]; omega
      · rw [e]; exact k3
      · refine ⟨v2.inv, ?_, ?_⟩
        · rw [hlen, Arr.len_eq v2.inv.arr, v4, u4]
          intro m v hm
          rw [u4, ← hn]
          have hm' : PKey.idx m ∈ o.items.map (·.1) := by
            rw [← SameItems.keys k5]; exact List.mem_map_of_mem hm
          obtain ⟨e, he, hem⟩ := List.mem_map.mp hm'
          rw [JSObj.items_eq ho.inv] at he
          rcases List.mem_append.mp he with he | he
          · obtain ⟨a, ha', rfl⟩ := List.mem_map.mp he
            simp only [PKey.idx.injEq] at hem
            subst hem
            rw [mem_itemsOf (v := a.2) (k := a.1)] at ha'
            by_contra hk
            rw [List.getElem?_eq_none (by omega)] at ha'
            simp at ha'
          · obtain ⟨a, ha', rfl⟩ := List.mem_map.mp he
            simp at hem
        · rw [v3]; exact k5
  · intro d ds
    rw [decodeTag_run, ← decodeSparse_body]
    rfl

end V8
