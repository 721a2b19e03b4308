import Verif.Proofs.MapLoop

/-!
# Changing a JSMap or JSSet in a loop over it (C92)
-/

namespace V8.Props

open V8 V8.MapLoop V8.Spec.MapLoop
variable {κ β : Type} [DecidableEq κ]

/-- Five numbers under themselves. -/
def exampleTable : Table Nat Nat := built ((List.range 5).map fun i => .put i i false)

/-- **C92**  What comes in a loop is there at that moment, with the value that it has at that moment, and the map has as
many entries as at the beginning: nothing comes once the size has changed. -/
theorem C92_now (changes : List (Change κ β)) (script : List (List (Change κ β))) :
    let r := loop (built changes) script
    (∀ x ∈ r.came, x.1 ∈ dict x.2 ∧ (dict x.2).length = (dict (built changes)).length) ∧
      (r.ending = some .stop → (dict r.final).length = (dict (built changes)).length) :=
  ⟨run_now script _ _, run_final script _ _⟩

example : keys (loop exampleTable [[], [.erase 4], []]) = [0, 1] ∧
    (loop exampleTable [[], [.erase 4], []]).ending = some .runtimeError := by decide +kernel

/-- **C92**  A loop ends, whatever its body changes: after as many entries as the map had at the beginning, if not
before. -/
theorem C92_ends (changes : List (Change κ β)) (script : List (List (Change κ β)))
    (h : (dict (built changes)).length < script.length) :
    (loop (built changes) script).came.length ≤ (dict (built changes)).length ∧
      (loop (built changes) script).ending ≠ none :=
  ⟨run_length script _ _, run_ends script _ _ h⟩

example : (loop (built [.put 1 1 false]) [[.erase 1, .put (1 : Nat) (1 : Nat) false], []]).came.length = 1 ∧
    (loop (built [.put 1 1 false]) [[.erase 1, .put (1 : Nat) (1 : Nat) false], []]).ending = some .runtimeError := by
  decide +kernel

/-- **C92**  A loop that only stores new values under keys that are there, and deletes only what is not there, gets every
key once, in order, and ends normally. -/
theorem C92_replace (changes : List (Change κ β)) (script : List (List (Change κ β)))
    (hs : ∀ cs ∈ script, ∀ c ∈ cs, KeepsKeys (dict (built changes)).keys c)
    (h : (dict (built changes)).length < script.length) :
    keys (loop (built changes) script) = (dict (built changes)).keys ∧
      (loop (built changes) script).ending = some .stop :=
  run_keeps script _ _ hs rfl (List.length_map _).symm rfl h

example : ((loop exampleTable [[.put 3 30 true], [], [.erase 7], [], [], []]).came.map (·.1)) =
    [(0, 0), (1, 1), (2, 2), (3, 30), (4, 4)] := by decide +kernel

/-- **C92** (`_partial`: the table must not be made anew, nor cleared, in the loop; see `C92_skipped` and `C92_cleared`.)  If a
loop ends normally then the keys that came are the keys that the map has at the end: each once, in order, and no others. -/
theorem C92_complete_partial (changes : List (Change κ β)) (script : List (List (Change κ β)))
    (hs : ∀ cs ∈ script, ∀ c ∈ cs, InPlace c) (h : (loop (built changes) script).ending = some .stop) :
    keys (loop (built changes) script) = (dict (loop (built changes) script).final).keys :=
  run_complete script _ _ [] hs (Nat.zero_le _) (List.Sublist.refl _) (Nat.zero_add _) h

example : keys (loop exampleTable [[], [.erase 3, .put 9 9 false], [], [], [], []]) = [0, 1, 2, 4, 9] ∧
    (loop exampleTable [[], [.erase 3, .put 9 9 false], [], [], [], []]).ending = some .stop := by decide +kernel

/-- **C92**, what is missing: when the table is full, as with five entries, then storing another key moves the entries, and
the loop passes over one that was there all the time. -/
theorem C92_skipped :
    keys (loop exampleTable [[.erase 0, .put 5 5 true], [], [], [], [], []]) = [0, 2, 3, 4, 5] ∧
      (loop exampleTable [[.erase 0, .put 5 5 true], [], [], [], [], []]).ending = some .stop ∧
      (dict (loop exampleTable [[.erase 0, .put 5 5 true], [], [], [], [], []]).final).keys = [1, 2, 3, 4, 5] := by
  decide +kernel

/-- **C92**, what is missing: after `clear()` and as many new keys the loop goes on at the same place. -/
theorem C92_cleared :
    keys (loop (built [.put 1 1 false, .put 2 2 false, .put 3 (3 : Nat) false])
        [[], [.clear, .put 7 7 false, .put 8 8 false, .put (9 : Nat) 9 false], [], []]) = [1, 2, 9] ∧
      (loop (built [.put 1 1 false, .put 2 2 false, .put 3 (3 : Nat) false])
        [[], [.clear, .put 7 7 false, .put 8 8 false, .put (9 : Nat) 9 false], [], []]).ending = some .stop := by
  decide +kernel

/-- **C92**  A key that is never taken away comes at most once, also when the table is made anew. -/
theorem C92_once (k : κ) (changes : List (Change κ β)) (script : List (List (Change κ β)))
    (hs : ∀ cs ∈ script, ∀ c ∈ cs, ¬ Removes k c) : (keys (loop (built changes) script)).count k ≤ 1 :=
  run_once k script _ _ hs (nodup_built changes)

example : (keys (loop exampleTable [[.erase 0, .put 5 5 true], [], [], [], [], []])).count 1 = 0 ∧
    (keys (loop exampleTable [[.erase 0, .put 5 5 true], [], [], [], [], []])).count 2 = 1 := by decide +kernel

/-- **C92**, why it must not be taken away: a key that is deleted and stored again comes again. -/
theorem C92_again :
    keys (loop (built [.put 1 1 false, .put 2 (2 : Nat) false])
      [[.erase 1, .erase 2, .put 1 1 false, .put (3 : Nat) 3 false], [], []]) = [1, 1] := by
  decide +kernel

/-- **C92**  The table has the entries that the model of JSMap has (`Model/Value`), in the same order, whenever it is made
anew. -/
theorem C92_map (t : Table SvzKey (Val × Val)) (k v : Val) (rebuild : Bool) :
    dict (changeMap t [.set k v rebuild]) = (JSMap.setitem (dict t) k v).1 ∧
      dict (changeMap t [.del k]) = (JSMap.delitem (dict t) k).1 ∧ dict (changeMap t [.clear]) = [] := by
  refine ⟨?_, ?_, rfl⟩
  · simp only [changeMap, MapChange.change, JSMap.setitem, List.flatMap_cons, List.flatMap_nil, List.append_nil]
    cases sameValueZero k with
    | error e => rfl
    | ok key => exact dict_put t key (k, v) rebuild
  · simp only [changeMap, MapChange.change, JSMap.delitem, List.flatMap_cons, List.flatMap_nil, List.append_nil]
    cases sameValueZero k with
    | error e => rfl
    | ok key =>
      have hd := dict_erase t key
      cases h : Dict.get (dict t) key with
      | none =>
        rw [del_absent _ _ ((get_none _ _).1 h)] at hd
        simp only [h]
        exact hd
      | some _ =>
        simp only [h]
        exact hd

/-- **C92**  The same for JSSet. -/
theorem C92_set (t : Table SvzKey Val) (v : Val) (key : SvzKey) (rebuild : Bool) (h : sameValueZero v = .ok key) :
    dict (Change.apply t (.put key v rebuild)) = (JSSet.add (dict t) v).1 ∧
      dict (Change.apply t (.erase key)) = (JSSet.discard (dict t) v).1 := by
  constructor
  · simp only [JSSet.add, h]
    exact dict_put t key v rebuild
  · simp only [JSSet.discard, h, Change.apply, dict_erase]
    cases hg : Dict.get (dict t) key with
    | none => exact del_absent _ _ ((get_none _ _).1 hg)
    | some _ => rfl

theorem writeItems_spec (script : List (List MapChange × List MapChange)) :
    ∀ (t : Table SvzKey (Val × Val)) (c : Cursor) (count : Nat), Keyed t → (dict t).keys.Nodup →
      (writeItems t c count script).count = count + (writeItems t c count script).values.length ∧
      (writeItems t c count script).values.length ≤ 2 * c.left ∧
      (∀ e, (writeItems t c count script).ending ≠ some (.error e)) ∧
      (writeItems t c count script).values =
        (run t c (script.map fun s => (s.1 ++ s.2).flatMap MapChange.change)).came.flatMap
          (fun x => [x.1.2.1, x.1.2.2]) := by
  induction script with
  | nil => intro t c count _ _; exact ⟨rfl, Nat.zero_le _, (fun _ h => by cases h), rfl⟩
  | cons s script ih =>
    intro t c count hk hd
    obtain ⟨a, b⟩ := s
    unfold writeItems
    rw [List.map_cons]
    unfold run
    cases hn : next t c with
    | ended e => exact ⟨rfl, Nat.zero_le _, (fun _ h => by cases h), rfl⟩
    | entry e c' =>
      obtain ⟨key, k, v⟩ := e
      have hm := entry_mem hn
      have hg : JSMap.getitem (dict t) k = .ok v := by
        simp only [JSMap.getitem, hk _ hm, get_mem hd hm]
      have h2 := (next_entry hn).2.1
      have hstep : changeMap (changeMap t a) b = ((a ++ b).flatMap MapChange.change).foldl Change.apply t := by
        unfold changeMap
        rw [List.flatMap_append, List.foldl_append]
      obtain ⟨g1, g2, g3, g4⟩ := ih (changeMap (changeMap t a) b) c' (count + 2)
        (keyed_changeMap b _ (keyed_changeMap a t hk)) (nodup_changeMap b _ (nodup_changeMap a t hd))
      simp only [hg, List.length_cons]
      refine ⟨by omega, by omega, g3, ?_⟩
      rw [g4]
      simp only [List.flatMap_cons, hstep]
      rfl

/-- **C92**  While a JSMap is written, encode steps may change it.  The number that is written behind the entries is the
number of keys and values that were written before it; looking up the value of a key that came does not fail; and the keys
and values are the ones of the loop, each value as it was when its key came. -/
theorem C92_written (changes : List MapChange) (script : List (List MapChange × List MapChange)) :
    let t := changeMap [] changes
    let w := writeItems t (start t) 0 script
    w.count = w.values.length ∧ w.values.length ≤ 2 * (dict t).length ∧ (∀ e, w.ending ≠ some (.error e)) ∧
      w.values = (loop t (script.map fun s => (s.1 ++ s.2).flatMap MapChange.change)).came.flatMap
        (fun x => [x.1.2.1, x.1.2.2]) := by
  have := writeItems_spec script (changeMap [] changes) (start (changeMap [] changes)) 0
    (keyed_changeMap changes [] (fun _ h => by cases h)) (nodup_changeMap changes [] List.nodup_nil)
  exact ⟨by rw [this.1, Nat.zero_add], this.2⟩

example :
    let t := changeMap [] [.set (.int 1) (.bool true) false, .set (.str [97]) .null false]
    writeItems t (start t) 0 [([.set (.float 0x3FF0000000000000) .undef false], []), ([], []), ([], [])] =
      ⟨[.int 1, .bool true, .str [97], .null], 4, some (.ok .stop)⟩ := by decide +kernel

end V8.Props
