import Verif.Proofs.ReprText
import Verif.Props.Repr

/-!
# C94: the characters of an indented `repr()`

The texts of `JSRepr` (_repr.py:44-330) with `indent`, which Python 3.12 lays out in `Repr._join`.  Texts of values that
are no containers, of names and of numbers are left open; so are the fill value and the limits.
-/

namespace V8.Props

open V8 V8.ReprText V8.Spec.ReprText

/-- What the members of `shownHeap` look like. -/
def exampleLook (indent : Option Int) : Look where
  indent := indent
  fill := "...".toList
  lit := fun v => match v with
    | .int 1 => "1".toList
    | .str s => if s = str "m" then "'m, m'".toList else "'s'".toList
    | .null => "None".toList
    | _ => "JSHole".toList
  enumText := fun _ => "JSErrorName.TypeError".toList
  other := fun _ => "<o>".toList
  ident := fun s => if s = str "k" then "k".toList else "e".toList
  key := fun _ => "'k'".toList
  index := fun _ => "7".toList

theorem exampleLook_oneLine (indent : Option Int) : OneLine (exampleLook indent) where
  fill := by simp only [exampleLook]; decide
  lit v := by
    simp only [exampleLook]
    split
    · decide
    · split <;> decide
    · decide
    · decide
  enumText _ := by simp only [exampleLook]; decide
  other _ := by simp only [exampleLook]; decide
  ident s := by
    simp only [exampleLook]
    split <;> decide
  key _ := by simp only [exampleLook]; decide
  index _ := by simp only [exampleLook]; decide

/-- **C94, same text**: with an indent of 0 or more, whatever is shown without an indent is shown too, and the two texts
differ only in spaces, line ends and commas before closing brackets. -/
theorem C94_same (env : ReprEnv) (look : Look) {n : Int} (hn : 0 ≤ n) (maxlevel : Nat) (v : Val) {t : Text}
    (h : reprOf env { look with indent := none } maxlevel v = .ok t) :
    ∃ t', reprOf env { look with indent := some n } maxlevel v = .ok t' ∧ squash t' = squash t := by
  obtain ⟨t', ht, ha⟩ := text_foll (R := Alike) (l1 := { look with indent := some n }) (l2 := { look with indent := none })
    (env := env) (m1 := maxlevel) (m2 := maxlevel) maxlevel
    (fun level _ => compat_alike look hn _ _) (alike_refl _) (fun _ => alike_refl _) (fun _ => alike_refl _)
    maxlevel (Nat.le_refl _) [] v t h
  exact ⟨t', ht, ha.1 []⟩

/-- Every kind of container at once, without an indent … -/
example : reprOf (reprExample shownHeap) (exampleLook none) 6 (.obj 0) =
    .ok ("JSObject(k=JSArray([1, JSHole, JSMap([('s', 1), (JSSet([1, 's']), None)])]), " ++
      "e=JSError('m, m', name='s'))").toList := by decide +kernel

/-- … and with one. -/
example : reprOf (reprExample shownHeap) (exampleLook (some 2)) 6 (.obj 0) = .ok
    ("JSObject(\n" ++
     "  k=JSArray([\n" ++
     "    1,\n" ++
     "    JSHole,\n" ++
     "    JSMap([\n" ++
     "      ('s', 1),\n" ++
     "      (JSSet([\n" ++
     "        1,\n" ++
     "        's',\n" ++
     "      ]), None),\n" ++
     "    ]),\n" ++
     "  ]),\n" ++
     "  e=JSError(\n" ++
     "    'm, m',\n" ++
     "    name='s',\n" ++
     "  ),\n" ++
     ")").toList := by decide +kernel

/-- Texts with other characters, or the same in another order, are not the same without layout. -/
example : squash "JSSet([1, 's'])".toList ≠ squash "JSSet(['s', 1])".toList ∧
    squash "JSSet([1, 's'])".toList ≠ squash "JSSet([1's'])".toList ∧
    squash "JSSet([1, 's'])".toList = "JSSet([1,'s'])".toList := by decide +kernel

/-- **C94, one line**: without an indent there are no line ends but those of the texts left open. -/
theorem C94_oneline (env : ReprEnv) {look : Look} (ho : OneLine look) (hi : look.indent = none) (maxlevel : Nat) (v : Val)
    {t : Text} (h : reprOf env look maxlevel v = .ok t) : '\n' ∉ t := by
  obtain ⟨t', _, ht, hl⟩ := text_foll (R := fun a b => a = b ∧ '\n' ∉ a) (l1 := look) (l2 := look) (env := env)
    (m1 := maxlevel) (m2 := maxlevel) maxlevel (fun level _ => compat_oneLine ho hi _) ⟨rfl, ho.fill⟩
    (fun v => ⟨rfl, ho.lit v⟩) (fun i => ⟨rfl, ho.other i⟩) maxlevel (Nat.le_refl _) [] v t h
  rw [← ht]
  exact hl

example : '\n' ∉ "JSSet([1, 's'])".toList :=
  C94_oneline (reprExample shownHeap) (exampleLook_oneLine none) rfl 6 (.obj 3) (by decide +kernel)

theorem shift_shift (n m : Nat) (t : Text) : shift n (shift m t) = shift (m + n) t := by
  induction t with
  | nil => rfl
  | cons c t ih =>
    have hs : ∀ k, shift k (c :: t) = shift k [c] ++ shift k t := fun k => shift_append k [c] t
    rw [hs m, hs (m + n), shift_append, ih]
    congr 1
    by_cases hc : c = '\n'
    · subst hc
      have : ∀ k, shift k ['\n'] = '\n' :: List.replicate k ' ' := fun k => by
        unfold shift
        rw [List.flatMap_cons, if_pos rfl, List.flatMap_nil, List.append_nil]
      rw [this, this, shift_newline]
    · have h1 : '\n' ∉ [c] := fun h => hc (List.mem_singleton.1 h).symm
      rw [shift_oneLine h1, shift_oneLine h1, shift_oneLine h1]

/-- **C94, nesting**: `deep` levels inside other containers a value has the text it has on its own with the levels that are
left, moved to the right by `deep` times the indent. -/
theorem C94_shift (env : ReprEnv) {look : Look} (ho : OneLine look) {n : Int} (hi : look.indent = some n)
    (deep level : Nat) (running : List Id) (v : Val) {t : Text} (h : text env look level level running v = .ok t) :
    text env look (level + deep) level running v = .ok (shift (deep * n.toNat) t) := by
  induction deep with
  | zero =>
    have h0 : shift (0 * n.toNat) t = t := by
      rw [Nat.zero_mul]
      unfold shift
      have : (fun c : Char => if c = '\n' then '\n' :: List.replicate 0 ' ' else [c]) = fun c => [c] := by
        funext c
        split
        · rename_i hc
          rw [hc]
          rfl
        · rfl
      rw [this]
      exact List.flatMap_singleton' t
    rw [h0]
    exact h
  | succ deep ih =>
    obtain ⟨t', ht, hr⟩ := text_foll (R := fun a b => a = shift n.toNat b) (l1 := look) (l2 := look) (env := env)
      (m1 := level + deep + 1) (m2 := level + deep) level
      (fun k hk => by
        have h1 : level + deep + 1 - (k + 1) + 1 = (level + deep - (k + 1)) + 1 + 1 := by omega
        rw [h1]
        exact compat_shift ho hi _)
      (shift_oneLine ho.fill).symm (fun v => (shift_oneLine (ho.lit v)).symm) (fun i => (shift_oneLine (ho.other i)).symm)
      level (Nat.le_refl _) running v _ ih
    have hr : t' = shift n.toNat (shift (deep * n.toNat) t) := hr
    rw [shift_shift, ← Nat.succ_mul] at hr
    rw [← hr]
    exact ht

example : text (reprExample shownHeap) (exampleLook (some 2)) 6 3 [] (.obj 3) =
    .ok (shift 6 "JSSet([\n  1,\n  's',\n])".toList) :=
  C94_shift _ (exampleLook_oneLine _) rfl 3 3 [] (.obj 3) (by decide +kernel)

theorem collect_known : ∀ {l : List (Except PyExc Text)} {ts : List Text}, l = ts.map .ok → collect l = .ok ts
  | _, [], rfl => rfl
  | _, t :: ts, rfl => by
    rw [List.map_cons, collect, collect_known rfl]
    rfl

theorem shifted_members {α : Type} {env : ReprEnv} {look : Look} (ho : OneLine look) {n : Int} (hi : look.indent = some n)
    {level : Nat} {i : Id} (val : α → Val) : ∀ {ms : List α} {ts : List Text},
    ms.map (fun m => text env look level level [i] (val m)) = ts.map .ok →
    ms.map (fun m => text env look (level + 1) level [i] (val m)) = (ts.map (shift n.toNat)).map .ok
  | [], [], _ => rfl
  | [], _ :: _, h => by cases h
  | _ :: _, [], h => by cases h
  | m :: ms, t :: ts, h => by
    simp only [List.map_cons, List.cons.injEq] at h ⊢
    have := C94_shift env ho hi 1 level [i] (val m) h.1
    rw [Nat.one_mul] at this
    exact ⟨this, shifted_members ho hi val h.2⟩

/-- **C94, layout of a JSSet**: every member has a line of its own, indented and with a comma after it, and the closing
brackets have the last line.  `ts` are the texts the members have on their own, with one level less. -/
theorem C94_layout_set (env : ReprEnv) {look : Look} (ho : OneLine look) {n : Nat} (hi : look.indent = some (n : Int))
    {i : Id} {ms : List Val} (hheap : env.heap[i]? = some (.jsset ms)) (hne : ms ≠ []) (hmax : ms.length ≤ env.maxset)
    (level : Nat) {ts : List Text} (hts : ms.map (fun m => text env look level level [i] m) = ts.map .ok) :
    reprOf env look (level + 1) (.obj i) =
      .ok ("JSSet([".toList ++ lines n (ts.map (shift n)) ++ "\n])".toList) := by
  have hm := shifted_members ho hi (fun m => m) hts
  have hlen : ts ≠ [] := by
    intro h
    subst h
    cases ms with
    | nil => exact hne rfl
    | cons m ms => cases hts
  unfold reprOf
  simp only [text, List.not_mem_nil, if_false, hheap, textNode]
  unfold textSet
  rw [if_neg (by cases ms with
    | nil => exact absurd rfl hne
    | cons m ms => simp)]
  rw [List.take_of_length_le hmax]
  have hc : collect (ms.map (text env look (level + 1) level [i])) = .ok (ts.map (shift n)) := collect_known hm
  rw [hc]
  show (do
    let t ← join look _ false (withFill look (decide (env.maxset < ms.length)) (ts.map (shift n)))
    Except.ok (ε := PyExc) ("JSSet([".toList ++ (t ++ "]".toList) ++ ")".toList)) = _
  rw [decide_eq_false (by omega)]
  have hd : level + 1 - (level + 1) + 1 = 0 + 1 := by omega
  rw [hd, show withFill look false (ts.map (shift n)) = ts.map (shift n) from rfl,
    join_indented hi (by omega) 0 false _ (.inr (by simpa using hlen))]
  show Except.ok _ = Except.ok _
  congr 1
  rw [show (0 + 1) * (n : Int).toNat = n by simp, Nat.zero_mul]
  simp only [List.append_assoc]
  rfl

example : reprOf (reprExample shownHeap) (exampleLook (some 2)) 6 (.obj 3) = .ok "JSSet([\n  1,\n  's',\n])".toList :=
  C94_layout_set (reprExample shownHeap) (exampleLook_oneLine _) (n := 2) rfl (ms := [.int 1, .str (str "s")]) rfl
    (by simp) (by decide) 5 (ts := ["1".toList, "'s'".toList]) (by decide +kernel)

/-- **C94, layout of a JSArray** that is dense and has no other properties. -/
theorem C94_layout_array (env : ReprEnv) {look : Look} (ho : OneLine look) {n : Nat} (hi : look.indent = some (n : Int))
    {i : Id} {items : List (Option Val)} {used : Nat} (hheap : env.heap[i]? = some (.jsarr ⟨.dense ⟨items, used⟩, []⟩))
    (hlen : (JSObj.mk (.dense ⟨items, used⟩) ([] : Dict Str Val)).len ≠ 0) (hne : items ≠ [])
    (hmax : items.length ≤ env.maxjsarray) (level : Nat) {ts : List Text}
    (hts : items.map (fun m => text env look level level [i] (elemVal m)) = ts.map .ok) :
    reprOf env look (level + 1) (.obj i) =
      .ok ("JSArray([".toList ++ lines n (ts.map (shift n)) ++ "\n])".toList) := by
  have hm := shifted_members ho hi elemVal hts
  have htn : ts ≠ [] := by
    intro h
    subst h
    cases items with
    | nil => exact hne rfl
    | cons m ms => cases hts
  unfold reprOf
  simp only [text, List.not_mem_nil, if_false, hheap, textNode]
  unfold textArray
  rw [if_neg hlen]
  dsimp only
  rw [List.take_of_length_le hmax, collect_known hm, decide_eq_false (show ¬ env.maxjsarray < items.length by omega)]
  have hd : level + 1 - (level + 1) + 1 = 0 + 1 := by omega
  have he : (ts.map (shift n)).isEmpty = false := by
    cases ts with
    | nil => exact absurd rfl htn
    | cons t ts => rfl
  have hk : canBeKwargs env ([] : Dict Str Val) = false := rfl
  have hj : join look (0 + 1) false [] = .ok [] := by
    unfold join
    rw [hi]
    rfl
  have ht : ∀ k, List.take k ([] : Dict Str Val) = [] := fun k => List.take_nil
  rw [hd, hk]
  simp only [ht, List.map_nil, collect]
  show (do
    let psText ← join look (0 + 1) false []
    if (ts.map (shift n)).isEmpty then .ok ("JSArray({".toList ++ (inside [] psText ++ "}".toList) ++ ")".toList)
    else do
      let arrText ← join look (0 + 1) false (ts.map (shift n))
      Except.ok (ε := PyExc) ("JSArray([".toList ++ (arrText ++ "]".toList) ++ ")".toList)) = _
  rw [hj, he, join_indented hi (by omega) 0 false _ (.inr (by simpa using htn))]
  show Except.ok _ = Except.ok _
  congr 1
  rw [show (0 + 1) * (n : Int).toNat = n by simp, Nat.zero_mul]
  simp only [List.append_assoc]
  rfl

example : reprOf (reprExample shownHeap) (exampleLook (some 1)) 2 (.obj 1) =
    .ok "JSArray([\n 1,\n JSHole,\n JSMap([\n  (..., ...),\n  (..., ...),\n ]),\n])".toList :=
  C94_layout_array (reprExample shownHeap) (exampleLook_oneLine _) (n := 1) rfl
    (items := [some (.int 1), none, some (.obj 2)]) (used := 2) rfl (by decide) (by simp) (by decide) 1
    (ts := ["1".toList, "JSHole".toList, "JSMap([\n (..., ...),\n (..., ...),\n])".toList]) (by decide +kernel)

/-- **C94, no failure (partial)**: with a fill value that is not empty, and no indent or one of 0 or more, there is a text for
every value, cyclic or not.  (Missing: `C94_empty_fill`, `C94_negative`.) -/
theorem C94_ok_partial (env : ReprEnv) {look : Look} (hf : look.fill ≠ []) (hi : ∀ n, look.indent = some n → 0 ≤ n)
    (maxlevel : Nat) (v : Val) : ∃ t, reprOf env look maxlevel v = .ok t :=
  text_returns env hf hi maxlevel maxlevel [] v

/-- A JSSet that holds itself. -/
example : reprOf (reprExample [.jsset [.obj 0, .null]]) (exampleLook (some 1)) 6 (.obj 0) =
    .ok "JSSet([\n ...,\n None,\n])".toList := by decide +kernel

/-- **C94, no failure: false with an empty fill value**: keyword arguments beyond the limit leave one empty text, whose first
character is asked for (`kwargs_repr[0]`, _repr.py:179 and 238). -/
theorem C94_empty_fill : ∃ (heap : Heap) (look : Look), look.fill = [] ∧ look.indent = none ∧
    reprOf (reprExample heap) look 6 (.obj 0) = .error .indexError :=
  ⟨[.jsarr ⟨.dense ⟨[some (.int 1), some (.int 1), some (.int 1)], 3⟩, [(str "k", .int 1)]⟩],
    { exampleLook none with fill := [] }, rfl, rfl, by decide +kernel⟩

/-- **C94, negative indents**: the JSSet with members cannot be shown. -/
theorem C94_negative (env : ReprEnv) {look : Look} {n : Int} (hi : look.indent = some n) (hn : n < 0) {i : Id} {ms : List Val}
    (hheap : env.heap[i]? = some (.jsset ms)) (hne : ms ≠ []) (hmax : 0 < env.maxset) (level : Nat) {ts : List Text}
    (hts : (ms.take env.maxset).map (fun m => text env look (level + 1) level [i] m) = ts.map .ok) :
    reprOf env look (level + 1) (.obj i) = .error .valueError := by
  have htn : ts ≠ [] := by
    intro h
    subst h
    cases ms with
    | nil => exact hne rfl
    | cons m ms =>
      obtain ⟨k, hk⟩ : ∃ k, env.maxset = k + 1 := ⟨env.maxset - 1, by omega⟩
      rw [hk] at hts
      cases hts
  unfold reprOf
  simp only [text, List.not_mem_nil, if_false, hheap, textNode]
  unfold textSet
  rw [if_neg (by cases ms with
    | nil => exact absurd rfl hne
    | cons m ms => simp)]
  have hc : collect ((ms.take env.maxset).map (text env look (level + 1) level [i])) = .ok ts := collect_known hts
  rw [hc]
  have hj : ∀ d more, join look d false (withFill look more ts) = .error .valueError := by
    intro d more
    unfold join
    rw [hi]
    have hw : (!false && (withFill look more ts).isEmpty) = false := by
      cases ts with
      | nil => exact absurd rfl htn
      | cons t ts => cases more <;> rfl
    dsimp only
    rw [hw, if_neg (by decide), if_pos hn]
  show (do
    let t ← join look _ false (withFill look _ ts)
    Except.ok (ε := PyExc) ("JSSet([".toList ++ (t ++ "]".toList) ++ ")".toList)) = _
  rw [hj]
  rfl

example : reprOf (reprExample shownHeap) (exampleLook (some (-1))) 6 (.obj 3) = .error .valueError :=
  C94_negative (reprExample shownHeap) (n := -1) rfl (by decide) (ms := [.int 1, .str (str "s")]) rfl (by simp) (by decide) 5
    (ts := ["1".toList, "'s'".toList]) (by decide +kernel)

end V8.Props
