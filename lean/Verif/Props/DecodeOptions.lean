import Verif.Proofs.DecodeOptions
import Verif.Props.PlainEq
import Verif.Spec.Examples

/-!
# C64: the options of TagReader change how values are represented, and nothing else

`Spec/DecodeOptions.lean` says node by node what the options should change: constants are the given ones, containers are
of the given types, made from the same contents in the same order.
-/

namespace V8.Props
open V8 V8.Spec

/-! ## The default options -/

/-- **C64.** `TagReader()` and a TagReader with the defaults written out are the same. -/
theorem C64_default (cmp : PyCompare) (env : DEnv) (data : Bytes) : loadsWith (.default cmp) env data = loads env data := by
  have h := loads_as (loud := False) (.inr (default_only cmp)) env data
  generalize loads env data = x at h
  generalize loadsWith (.default cmp) env data = y at h
  cases h with
  | err e => rfl
  | left p r h => exact h.elim
  | right p r h => exact h.elim
  | @ok v v' s s' h1 h2 =>
    have hv := readAs_default h1
    have hh : s.heap = s'.heap := forall₂_imp_eq (fun _ _ h => nodeAs_default h) h2.same.heap
    have hs : s' = s := by
      obtain ⟨⟨a1, a2, a3, a4, -⟩, -⟩ := h2
      cases s; cases s'; simp_all
    rw [hv, hs]

/-! ## Constants and errors -/

/-- **C64.** Options that change constants and errors only: the same data is accepted, the same exceptions are raised,
and what is returned is the same up to the options. -/
theorem C64_alike {o : ReaderOptions} (ho : OnlyConstantsAndErrors o) (env : DEnv) (data : Bytes) :
    (∀ e, loadsWith o env data = .error e ↔ loads env data = .error e) ∧
      ((∃ r, loadsWith o env data = .ok r) ↔ ∃ r, loads env data = .ok r) ∧
      ∀ v s v' s', loads env data = .ok (v, s) → loadsWith o env data = .ok (v', s') →
        ReadAs o v v' ∧ SameUpTo o env.py s s' := by
  have h := loads_as (loud := False) (.inr ho) env data
  generalize loads env data = x at h
  generalize loadsWith o env data = y at h
  cases h with
  | err e => exact ⟨fun e => Iff.rfl, by simp, by simp⟩
  | left p r h => exact h.elim
  | right p r h => exact h.elim
  | ok h1 h2 =>
    refine ⟨by simp, by simp, ?_⟩
    intro v s v' s' hx hy
    cases hx
    cases hy
    exact ⟨h1, h2.same⟩

/-- `TagReader(js_constants={SerializationTag.kUndefined: None}, js_error_builder=JSErrorData.builder)` -/
def noneForUndefined : ReaderOptions :=
  ⟨exampleCompare, false, false, false, false, true, fun t => if t = .kUndefined then some .null else none⟩

theorem noneForUndefined_only : OnlyConstantsAndErrors noneForUndefined where
  map := rfl
  set := rfl
  object := rfl
  array := rfl
  hole t v h := by
    simp only [constantValues, List.mem_cons, Prod.mk.injEq, List.not_mem_nil, or_false] at h
    rcases h with ⟨rfl, rfl⟩ | ⟨rfl, rfl⟩ | ⟨rfl, rfl⟩ | ⟨rfl, rfl⟩ | ⟨rfl, rfl⟩ <;>
      simp [constantAs, noneForUndefined]
  keys t v h := by
    simp only [constantValues, List.mem_cons, Prod.mk.injEq, List.not_mem_nil, or_false] at h
    rcases h with ⟨rfl, rfl⟩ | ⟨rfl, rfl⟩ | ⟨rfl, rfl⟩ | ⟨rfl, rfl⟩ | ⟨rfl, rfl⟩ <;>
      simp [constantAs, noneForUndefined, TooBig]

/-- `{a: undefined}` and an error without a message, in a JSObject. -/
example : OnlyConstantsAndErrors noneForUndefined ∧
    result (loads exampleDec [0xff, 0x0f, 0x6f, 0x22, 1, 97, 0x5f, 0x22, 1, 98, 0x72, 0x2e, 0x7b, 2]) =
      some (.obj 0, [.jsobj ⟨JSObj.empty.array, [([97], .undef), ([98], .obj 1)]⟩,
        .error [69, 114, 114, 111, 114] (some []) none .null], 14) ∧
    result (loadsWith noneForUndefined exampleDec
        [0xff, 0x0f, 0x6f, 0x22, 1, 97, 0x5f, 0x22, 1, 98, 0x72, 0x2e, 0x7b, 2]) =
      some (.obj 0, [.jsobj ⟨JSObj.empty.array, [([97], .null), ([98], .obj 1)]⟩,
        .error [69, 114, 114, 111, 114] none none .null], 14) :=
  ⟨noneForUndefined_only, by decide +kernel, by decide +kernel⟩

/-- **C64.** Such options leave the properties of an object alone: the same keys in the same order, with the same values
up to the options. -/
theorem C64_objects {o : ReaderOptions} (ho : OnlyConstantsAndErrors o) {py : PyEnv} {r : JSObj Val} {n' : Node}
    (h : NodeAs o py (.jsobj r) n') : ∃ r', n' = .jsobj r' ∧
      List.Forall₂ (fun e e' : PKey × Val => e'.1 = e.1 ∧ ReadAs o e.2 e'.2) r.items r'.items := by
  obtain ⟨ps, ps', h1, ⟨q, h2, h3⟩, h4⟩ := h
  cases h3
  rw [ho.object] at h4
  obtain ⟨r', h5, rfl⟩ := h4
  exact ⟨r', rfl, (paired_items (assigned_paired ho h1 ⟨JSObj.empty, rfl, rfl⟩ h2 h5)).1⟩

/-- **C64.** The same of an array, which also keeps its length (and so its holes). -/
theorem C64_arrays {o : ReaderOptions} (ho : OnlyConstantsAndErrors o) {py : PyEnv} {r : JSObj Val} {n' : Node}
    (h : NodeAs o py (.jsarr r) n') : ∃ r', n' = .jsarr r' ∧ r'.array.len = r.array.len ∧
      List.Forall₂ (fun e e' : PKey × Val => e'.1 = e.1 ∧ ReadAs o e.2 e'.2) r.items r'.items := by
  obtain ⟨len, ps, ps', h1, ⟨q, h2, h3⟩, h4⟩ := h
  cases h3
  rw [ho.array] at h4
  obtain ⟨r', h5, rfl⟩ := h4
  obtain ⟨r0, r0', h6, h7, h8⟩ := assigned_mark (o := o) h2 h5
  have := paired_items (assigned_paired ho h1 h6 h7 h8)
  exact ⟨r', rfl, this.2, this.1⟩

/-- The entries of a Map, if the options do not make two keys the same that were not. -/
theorem C64_map_items_partial {o : ReaderOptions} {es es' : List (Val × Val)} (h : List.Forall₂ (EntryAs o) es es')
    (hk : KeptApart SameValueZero es es') {n n' : Node} (hn : IsJSMapOf es n) (hn' : IsJSMapOf es' n') :
    ∃ l l', n = .jsmap l ∧ n' = .jsmap l' ∧ List.Forall₂ (EntryAs o) l l' := by
  obtain ⟨m, h1, rfl⟩ := hn
  obtain ⟨m', h2, rfl⟩ := hn'
  refine ⟨_, _, rfl, rfl, ?_⟩
  have hm := update_mapItemAs hk h (fun p hp => hp) .nil h1 h2
  generalize es.zip es' = H at hm
  clear h1 h2
  unfold JSMap.items
  induction hm with
  | nil => exact .nil
  | cons h _ ih => exact .cons h.1 ih

/-- `new Map([[undefined, 1], [2, true]])` -/
example : KeptApart SameValueZero [(.undef, .int 1), (.int 2, .bool true)] [(.null, .int 1), (.int 2, .bool true)] := by
  intro p hp q hq
  simp only [List.zip_cons_cons, List.zip_nil_left, List.mem_cons, List.not_mem_nil, or_false] at hp hq
  rcases hp with rfl | rfl <;> rcases hq with rfl | rfl <;> simp [SameValueZero]

/-- Without that: `undefined` and `null` are both None, and one of two entries is lost. -/
theorem C64_constants_merge_keys : ∃ o env data, OnlyConstantsAndErrors o ∧
    result (loads env data) = some (.obj 0, [.jsmap [(.undef, .int 1), (.null, .int 2)]], data.length) ∧
    result (loadsWith o env data) = some (.obj 0, [.jsmap [(.null, .int 2)]], data.length) :=
  ⟨noneForUndefined, exampleDec, [0xff, 0x0f, 0x3b, 0x5f, 0x49, 2, 0x30, 0x49, 4, 0x3a, 4], noneForUndefined_only,
    by decide +kernel, by decide +kernel⟩

/-- Booleans that come out of a wrapper object are not constants: `js_constants` is not asked. -/
theorem C64_wrapped_not_constant : ∃ o env, OnlyConstantsAndErrors o ∧
    (loadsWith o env [0xff, 0x0f, 0x54]).map Prod.fst = .ok (.str [121]) ∧
    (loadsWith o env [0xff, 0x0f, 0x79]).map Prod.fst = .ok (.bool true) := by
  refine ⟨⟨exampleCompare, false, false, false, false, false, fun t => if t = .kTrue then some (.str [121]) else none⟩,
    exampleDec, ⟨rfl, rfl, rfl, rfl, ?_, ?_⟩, by decide +kernel, by decide +kernel⟩ <;>
  · intro t v h
    simp only [constantValues, List.mem_cons, Prod.mk.injEq, List.not_mem_nil, or_false] at h
    rcases h with ⟨rfl, rfl⟩ | ⟨rfl, rfl⟩ | ⟨rfl, rfl⟩ | ⟨rfl, rfl⟩ | ⟨rfl, rfl⟩ <;>
      simp [constantAs, TooBig]

/-! ## Other containers -/

/-- Any options: if both readers return, they return the same up to the options; errors that are no Python exceptions
are the same; and if only one of the two raises, it is a Python exception. -/
theorem C64_containers_partial (o : ReaderOptions) (env : DEnv) (data : Bytes) :
    (∀ v s v' s', loads env data = .ok (v, s) → loadsWith o env data = .ok (v', s') →
      ReadAs o v v' ∧ SameUpTo o env.py s s') ∧
    (∀ r e, loads env data = .ok r → loadsWith o env data = .error e → ∃ p, e = .py p) ∧
    (∀ r e, loads env data = .error e → loadsWith o env data = .ok r → ∃ p, e = .py p) ∧
    ∀ e e', loads env data = .error e → loadsWith o env data = .error e' → e' = e ∨ (∃ p, e = .py p) ∨ ∃ p, e' = .py p := by
  have h := loads_as (loud := True) (.inl trivial) (o := o) env data
  generalize loads env data = x at h
  generalize loadsWith o env data = y at h
  cases h with
  | err e =>
    refine ⟨by simp, by simp, by simp, ?_⟩
    intro e1 e2 h1 h2
    cases h1; cases h2
    exact .inl rfl
  | left p r h =>
    refine ⟨by simp, by simp, ?_, ?_⟩
    · intro r e h1 h2; cases h1; exact ⟨p, rfl⟩
    · intro e e' h1 h2; cases h1; exact .inr (.inl ⟨p, rfl⟩)
  | right p r h =>
    refine ⟨by simp, ?_, by simp, ?_⟩
    · intro r e h1 h2; cases h2; exact ⟨p, rfl⟩
    · intro e e' h1 h2; cases h2; exact .inr (.inr ⟨p, rfl⟩)
  | ok h1 h2 =>
    refine ⟨?_, by simp, by simp, by simp⟩
    intro v s v' s' hx hy
    cases hx
    cases hy
    exact ⟨h1, h2.same⟩

/-- A Map read as a dict, if Python tells its keys apart exactly as JavaScript does: the entries are those of the
JSMap in the same order.  Where a key was stored twice, the dict shows its first form and the JSMap its last. -/
theorem C64_dict_items_partial {o : ReaderOptions} {cmp : PyCompare} (hw : HashesWell cmp) {es es' : List (Val × Val)}
    (h : List.Forall₂ (EntryAs o) es es') (hk : KeptApart (Equal cmp) es es') {n n' : Node} (hn : IsJSMapOf es n)
    (hn' : IsDictOf cmp es' n') : ∃ l l', n = .jsmap l ∧ n' = .jsmap l' ∧
      List.Forall₂ (fun e e' => ReadAs o e.2 e'.2 ∧ ∃ k, ReadAs o e.1 k ∧ Equal cmp e'.1 k) l l' := by
  obtain ⟨m, h1, rfl⟩ := hn
  obtain ⟨d, h2, rfl⟩ := hn'
  refine ⟨_, _, rfl, rfl, ?_⟩
  have hm := storeAll_dictItemAs hw hk h (fun p hp => hp) .nil h1 h2
  have hk : Apart (Equal cmp) (es.zip es') := hk
  generalize es.zip es' = H at hm hk
  clear h1 h2
  unfold JSMap.items
  induction hm with
  | nil => exact .nil
  | cons h _ ih =>
    refine .cons ?_ ih
    obtain ⟨h1, h2, ⟨f', h3, h4, -⟩, g, g', h5, h6, h7, h8⟩ := h
    refine ⟨h1, f'.1, h4.1, ?_⟩
    rw [← h6]
    exact (hk _ h5 _ h3).1 ((svz_iff _ _ _ _ h7 h2).1 rfl)

example : HashesWell exampleCompare ∧
    KeptApart (Equal exampleCompare) [(.int 1, .null), (.str [49], .undef), (.int 1, .int 2)]
      [(.int 1, .null), (.str [49], .undef), (.int 1, .int 2)] := by
  refine ⟨exampleCompare_hashesWell, ?_⟩
  intro p hp q hq
  simp only [List.zip_cons_cons, List.zip_nil_left, List.mem_cons, List.not_mem_nil, or_false] at hp hq
  have e1 : Equal exampleCompare (.int 1) (.int 1) := .inl rfl
  have e2 : Equal exampleCompare (.str [49]) (.str [49]) := .inl rfl
  have e3 : ¬ Equal exampleCompare (.int 1) (.str [49]) := by
    rintro (h | h) <;> exact absurd h (by decide +kernel)
  have e4 : ¬ Equal exampleCompare (.str [49]) (.int 1) := by
    rintro (h | h) <;> exact absurd h (by decide +kernel)
  rcases hp with rfl | rfl | rfl <;> rcases hq with rfl | rfl | rfl <;>
    simp only [e1, e2, e3, e4, iff_true, iff_false] <;> simp [SameValueZero]

/-- `jsmap_type=dict` -/
def mapsAsDicts : ReaderOptions := ⟨exampleCompare, true, false, false, false, false, fun _ => none⟩

/-- Without that: `1` and `true` are one key of a dict. -/
theorem C64_dict_merges_keys : ∃ o env data, o.setSet = false ∧
    result (loads env data) = some (.obj 0, [.jsmap [(.int 1, .int 1), (.bool true, .int 2)]], data.length) ∧
    result (loadsWith o env data) = some (.obj 0, [.jsmap [(.int 1, .int 2)]], data.length) :=
  ⟨mapsAsDicts, exampleDec, [0xff, 0x0f, 0x3b, 0x49, 2, 0x49, 2, 0x54, 0x49, 4, 0x3a, 4], rfl,
    by decide +kernel, by decide +kernel⟩

/-- A Map with an object as key cannot be read as a dict. -/
theorem C64_dict_unhashable : ∃ o env data,
    result (loads env data) = some (.obj 0, [.jsmap [(.obj 1, .int 1)], .jsobj JSObj.empty], data.length) ∧
    loadsWith o env data = .error (.py .typeError) :=
  ⟨mapsAsDicts, exampleDec, [0xff, 0x0f, 0x3b, 0x6f, 0x7b, 0, 0x49, 2, 0x3a, 2], by decide +kernel, by decide +kernel⟩

/-- `js_array_type=dict` leaves an entry for a hole that the array does not have an element for: the one that sets its
length. -/
theorem C64_array_dict_phantom : ∃ o env data,
    result (loads env data) = some (.obj 0, [.jsarr (JSObj.empty.setitem (.idx 2) none).1], data.length) ∧
    (JSObj.empty.setitem (α := Val) (.idx 2) none).1.items = [] ∧
    result (loadsWith o env data) = some (.obj 0, [.jsmap [(.int 2, .hole)]], data.length) :=
  ⟨⟨exampleCompare, false, false, false, true, false, fun _ => none⟩, exampleDec, [0xff, 0x0f, 0x61, 3, 0x40, 0, 3],
    by decide +kernel, by decide +kernel, by decide +kernel⟩

/-! ## Sets -/

/-- **C64.** `jsset_type=set`, which the documentation names, does not work: data with a Set that the default reader
accepts is rejected with a Python exception. -/
theorem C64_set_unusable {o : ReaderOptions} (hset : o.setSet = true) (env : DEnv) (data : Bytes) {v : Val} {s : DS}
    (h : loads env data = .ok (v, s)) (hs : ∃ ms, Node.jsset ms ∈ s.heap) :
    ∃ p, loadsWith o env data = .error (.py p) := by
  have hc := C64_containers_partial o env data
  cases hl : loadsWith o env data with
  | error e =>
    obtain ⟨p, rfl⟩ := hc.2.1 _ e h hl
    exact ⟨p, rfl⟩
  | ok r =>
    obtain ⟨v', s'⟩ := r
    obtain ⟨-, hh⟩ := hc.1 _ _ _ _ h hl
    obtain ⟨ms, hm⟩ := hs
    exfalso
    have hheap := hh.heap
    generalize s.heap = H at hheap hm
    generalize s'.heap = H' at hheap
    induction hheap with
    | nil => cases hm
    | cons hn _ ih =>
      rcases List.mem_cons.1 hm with rfl | hm
      · exact absurd hn.1 (by rw [hset]; simp)
      · exact ih hm

/-- `jsset_type=set` -/
def setsAsSets : ReaderOptions := ⟨exampleCompare, false, true, false, false, false, fun _ => none⟩

/-- `new Set([1])` -/
example : ∃ s, loads exampleDec [0xff, 0x0f, 0x27, 0x49, 2, 0x2c, 1] = .ok (.obj 0, s) ∧ (∃ ms, Node.jsset ms ∈ s.heap) ∧
    loadsWith setsAsSets exampleDec [0xff, 0x0f, 0x27, 0x49, 2, 0x2c, 1] = .error (.py .typeError) := by
  obtain ⟨s, h1, h2, -⟩ := result_ok (r := loads exampleDec [0xff, 0x0f, 0x27, 0x49, 2, 0x2c, 1]) (v := .obj 0)
    (h := [.jsset [.int 1]]) (p := 7) (by decide +kernel)
  exact ⟨s, h1, ⟨[.int 1], by rw [h2]; exact List.mem_cons_self⟩, by decide +kernel⟩

/-- `JSErrorData.builder` keeps a missing message as None, `JSError.builder` makes it "". -/
theorem C64_error_message : ∃ o env data,
    result (loads env data) = some (.obj 0, [.error [69, 114, 114, 111, 114] (some []) none .null], data.length) ∧
    result (loadsWith o env data) = some (.obj 0, [.error [69, 114, 114, 111, 114] none none .null], data.length) :=
  ⟨noneForUndefined, exampleDec, [0xff, 0x0f, 0x72, 0x2e], by decide +kernel, by decide +kernel⟩

end V8.Props
