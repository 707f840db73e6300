import Verif.Props.AdtMore
/-! # Data trees: a concrete tree, and what does not hold (C61) -/
namespace Verif.Adt
open Verif.Fmt

/-! ### A tree -/

/-- An object with an array of two elements and an object in an object. -/
abbrev demoEdits : List Edit := [.branch [] (some b!"list") true, .leaf [0] none (.int 7), .branch [] (some b!"o") false, .leaf [1] (some b!"k") (.str (some b!"v")),
  .leaf [0] none (.str (some b!"x")), .leaf [1] (some b!"n") (.int (-42)), .leaf [] (some b!"k") (.int 1), .set [0, 0] none (.int 8)]

abbrev demoList : Tree := .branch (some b!"list") true [.leaf none (.int 8), .leaf none (.str (some b!"x"))]
abbrev demoObject : Tree := .branch (some b!"o") false [.leaf (some b!"k") (.str (some b!"v")), .leaf (some b!"n") (.int (-42))]
abbrev demoTree : Tree := .branch (some b!"root") false [demoList, demoObject, .leaf (some b!"k") (.int 1)]

theorem demo_edits : editsTree demoEdits (.branch (some b!"root") false []) = some demoTree := by
  simp [editsTree, demoEdits, Edit.tree, Tree.modify, Tree.push]

/-- The edits run, and the variable holds the tree. -/
theorem C61_demo (heap : Bool) : ∃ h0 h f, makeBranch true ⟨[{}, {}], []⟩ (.var 0) (some b!"root") false = .ok (false, h0) ∧ editsRun .cpp heap (.var 0) demoEdits h0 = .ok h ∧
    Holds h (.var 0) demoTree f := by
  obtain ⟨h0, m1, m2, _⟩ := C61_make (h := ⟨[{}, {}], []⟩) (k := 0) (by simp) (some b!"root") false
  obtain ⟨h, f, r1, r2, _⟩ := C61_history heap demoEdits m2 demo_edits
  exact ⟨h0, h, f, m1, r1, r2⟩

theorem demo_named : demoTree.Named := by
  simp [Tree.Named, AllNamed, AllKids, Tree.name]

theorem demo_plain (F : F64) (lt : Bool) (real : UInt64 → Bytes) : Plain F lt real demoTree := by
  intro p name v h
  rcases p with _ | ⟨i, p⟩
  · simp [Tree.at_] at h
  · rcases i with _ | _ | _ | i
    · rcases p with _ | ⟨j, p⟩
      · simp [Tree.at_] at h
      · rcases j with _ | _ | j
        · rcases p with _ | ⟨_, p⟩
          · simp [Tree.at_] at h; obtain ⟨_, rfl⟩ := h; simp
          · simp [Tree.at_] at h
        · rcases p with _ | ⟨_, p⟩
          · simp [Tree.at_] at h; obtain ⟨_, rfl⟩ := h; simp
          · simp [Tree.at_] at h
        · simp [Tree.at_] at h
    · rcases p with _ | ⟨j, p⟩
      · simp [Tree.at_] at h
      · rcases j with _ | _ | j
        · rcases p with _ | ⟨_, p⟩
          · simp [Tree.at_] at h; obtain ⟨_, rfl⟩ := h; simp
          · simp [Tree.at_] at h
        · rcases p with _ | ⟨_, p⟩
          · simp [Tree.at_] at h; obtain ⟨_, rfl⟩ := h; simp
          · simp [Tree.at_] at h
        · simp [Tree.at_] at h
    · rcases p with _ | ⟨_, p⟩
      · simp [Tree.at_] at h; obtain ⟨_, rfl⟩ := h; simp
      · simp [Tree.at_] at h
    · simp [Tree.at_] at h

/-- `list/[x]` leads to the second element of the array. -/
theorem demo_walk (real : UInt64 → Bytes) : Walks real [.name b!"list", .value b!"x"] demoTree (some [0, 1]) := by
  have w1 : Walks real [.value b!"x"] demoList (some [1]) := by
    refine Walks.on (.value b!"x") [] _ _ _ [1] (.leaf none (.str (some b!"x"))) (some []) rfl ?_ ?_ (Walks.done _)
    · have : ¬ intText 8 = b!"x" := by decide
      simp [Seg.to, List.findIdx?_cons, Tree.hasValue, this]
    · simp [Tree.at_]
  refine Walks.on (.name b!"list") [.value b!"x"] _ _ _ [0] demoList (some [1]) rfl ?_ ?_ w1
  · simp [Seg.to, List.findIdx?_cons, Tree.name]
  · simp [Tree.at_]

/-- An object that is asked for a field leads to itself, and its children can be asked for. -/
theorem demo_walk2 (real : UInt64 → Bytes) : Walks real [.name b!"o", .field b!"n" b!"-42", .name b!"k"] demoTree (some [1, 0]) := by
  have w1 : Walks real [.name b!"k"] demoObject (some [0]) := by
    refine Walks.on (.name b!"k") [] _ _ _ [0] (.leaf (some b!"k") (.str (some b!"v"))) (some []) rfl ?_ ?_ (Walks.done _)
    · simp [Seg.to, List.findIdx?_cons, Tree.name]
    · simp [Tree.at_]
  have w2 : Walks real [.field b!"n" b!"-42", .name b!"k"] demoObject (some [0]) := by
    refine Walks.on (.field b!"n" b!"-42") _ _ _ _ [] demoObject (some [0]) trivial ?_ ?_ w1
    · have : intText (-42) = b!"-42" := by decide
      simp [Seg.to, hasField, Tree.name, Tree.hasValue, this]
    · simp [Tree.at_]
  refine Walks.on (.name b!"o") _ _ _ _ [1] demoObject (some [0]) rfl ?_ ?_ w2
  · simp [Seg.to, List.findIdx?_cons, Tree.name]
  · simp [Tree.at_]

theorem C61_demo_query (F : F64) (lt heap : Bool) : ∃ h0 h, makeBranch true ⟨[{}, {}], []⟩ (.var 0) (some b!"root") false = .ok (false, h0) ∧
    editsRun .cpp heap (.var 0) demoEdits h0 = .ok h ∧ query F lt 4 h (some (.var 0)) b!"list/[x]" = .ok (reach h (.var 0) [0, 1]) ∧
    query F lt 4 h (some (.var 0)) b!"/o/[n=-42]/k" = .ok (reach h (.var 0) [1, 0]) ∧
    find 3 h (.var 0) b!"n\x00" true = .ok (reach h (.var 0) [1, 1]) ∧ find 3 h (.var 0) b!"k\x00" true = .ok (reach h (.var 0) [2]) := by
  obtain ⟨h0, h, f, m1, m2, m3⟩ := C61_demo heap
  refine ⟨h0, h, m1, m2, ?_, ?_, ?_, ?_⟩
  · exact C61_query (real := fun _ => []) false m3 demo_named (demo_plain F lt _) (by simp [Seg.Ok]) (demo_walk _) (by simp)
  · exact C61_query (real := fun _ => []) true m3 demo_named (demo_plain F lt _) (by simp [Seg.Ok]) (demo_walk2 _) (by simp)
  · have := (C61_find (name := b!"n") [] true m3 demo_named (by decide) (fuel := 3) (by decide)).1
    simpa [Tree.find, findBelow, List.findIdx?_cons, Tree.name] using this
  · have := (C61_find (name := b!"k") [] true m3 demo_named (by decide) (fuel := 3) (by decide)).1
    simpa [Tree.find, findBelow, List.findIdx?_cons, Tree.name] using this

/-! ### What does not hold -/

/-- The result of building, and of another call. -/
def built (es : List Edit) (g : Heap → Res α) : Res α :=
  (makeBranch true ⟨[{}, {}], []⟩ (.var 0) (some b!"root") false).bind fun x => (editsRun .cpp true (.var 0) es x.2).bind g

/-- C61, refuted for the deep search: what is in an array is not found. -/
theorem C61_find_array_refuted : (Tree.at_ [0, 0] (.branch none false [.branch (some b!"a") true [.leaf (some b!"k") (.int 1)]])).map Tree.name = some (some b!"k") ∧
    built [.branch [] (some b!"a") true, .leaf [0] (some b!"k") (.int 1)] (fun h => find 3 h (.var 0) b!"k\x00" true) = .ok none := by
  refine ⟨by simp [Tree.at_, Tree.name], by decide +kernel⟩

/-- C61, refuted for unnamed children: looking for a name among children one of which has none reads a null pointer. -/
theorem C61_unnamed_refuted : built [.leaf [] none (.int 1), .leaf [] (some b!"k") (.int 2)] (fun h => find 3 h (.var 0) b!"k\x00" false) = .ub := by decide +kernel

/-- C61, refuted for pointers: the pointer to a child that an append returned is no longer one after eight more appends. -/
theorem C61_pointer_refuted : ∃ x, built [] (fun h => (Edit.run .cpp true (.var 0) h (.leaf [] (some b!"a") (.int 1))).bind fun r => .ok r.1) = .ok (some x) ∧
    built (List.replicate 8 (.leaf [] (some b!"a") (.int 1))) (fun h => h.read x) = .ok { name := some b!"a", num := { type := .integer, integer := 1 } } ∧
    built (List.replicate 9 (.leaf [] (some b!"a") (.int 1))) (fun h => h.read x) = .ub := ⟨.cell 0 0, by decide +kernel, by decide +kernel, by decide +kernel⟩

/-- C61, refuted for `adt_alloc_at` in the middle: the new node is not empty, it is the sibling that was there. -/
theorem C61_alloc_at_refuted : built [.leaf [] (some b!"a") (.int 1), .leaf [] (some b!"b") (.int 2)] (fun h => (allocAt .cpp true true h (some (.var 0)) 0).bind fun r =>
    match r.1 with
    | some x => (r.2.read x).bind fun n => .ok (n.name, n.num.integer, n.parent)
    | none => .stop) = .ok (some b!"a", 1, none) := by decide +kernel

/-- C61, refuted for `adt_move_node`: the node is copied to its new place and stays at the old one. -/
theorem C61_move_refuted : built [.branch [] (some b!"a") false, .branch [] (some b!"b") false, .leaf [0] (some b!"k") (.int 1)] (fun h =>
    (moveNode .cpp true true h (.cell 1 0) (.cell 0 1)).bind fun r => (r.2.read (.cell 1 0)).bind fun old => (r.2.read r.1).bind fun new =>
      (r.2.block 1).bind fun a => .ok (r.1, old.name, new.name, a.num)) = .ok (.cell 2 0, some b!"k", some b!"k", 1) := by decide +kernel

/-- A node that was moved knows its parent, and can be removed. -/
theorem C61_moved_can_go : built [.branch [] (some b!"a") false, .branch [] (some b!"b") false, .leaf [0] (some b!"k") (.int 1)] (fun h =>
    (moveNode .cpp true true h (.cell 1 0) (.cell 0 1)).bind fun r => (removeNode r.2 r.1).bind fun h => (h.block 2).bind fun a => .ok a.num) = .ok 0 := by decide +kernel

/-- C61, refuted for the C library: the first append to an empty branch reads far outside the array, whatever is appended to whichever branch. -/
theorem C61_clib_refuted (heap : Bool) {h : Heap} {r : Ref} {name nm : Option Bytes} {arr : Bool} {f : List Nat} {v : Leaf} (hh : Holds h r (.branch name arr []) f) :
    appendLeaf .clib heap true h (some r) nm v = .ub := by
  obtain ⟨n, hr, hs, _, _⟩ := hh
  obtain ⟨b, a, fs, b1, b2, b3, b4, b5, b6, b7⟩ := branch_facts hr hs
  have ha : ∀ x i, Arr.appendAt .clib heap true a x i = .ub := by
    intro x i
    unfold Arr.appendAt
    simp only [List.length_nil] at b3
    simp only [b3, true_and, if_true, Res.bind_eq]
    split
    · rename_i hc
      have hc0 : a.capacity = 0 := by omega
      unfold Arr.grow Arr.setCapacity Arr.growFormula
      simp only [hc0, b3, Res.assert, Res.bind_eq, Res.ok_bind, Res.pure_eq]
      cases heap <;> simp [Res.bind, Res.ok_bind]
    · rfl
  unfold appendLeaf alloc
  simp only [Res.bind_eq, hr, Res.ok_bind, b6, Bool.not_true, Bool.false_eq_true, if_false, b1, b2]
  unfold allocAt
  simp only [Res.bind_eq, hr, Res.ok_bind, b6, Bool.not_true, Bool.false_eq_true, if_false, b1, b2, ha]
  rw [if_neg (by omega)]
  rfl

/-- C61, refuted for a failed allocation: `adt_append_obj` is to return null if the array of the new object cannot be allocated, and stops the program instead, as
it removes the node again. -/
theorem C61_out_of_memory_refuted : built [] (fun h => appendBranch .cpp true true false h (some (.var 0)) (some b!"o") false) = .stop := by decide +kernel

/-- Appending to a leaf gives null and changes nothing. -/
theorem C61_append_leaf {lib : Lib} {heap mem : Bool} {h : Heap} {r : Ref} {name nm : Option Bytes} {f : List Nat} {v w : Leaf} (hh : Holds h r (.leaf name v) f) :
    appendLeaf lib heap mem h (some r) nm w = .ok (none, h) := by
  obtain ⟨n, hr, hs, _, _⟩ := hh
  have hb : isBranch n = false := by
    simp only [Shows] at hs
    have := hs.2.1
    unfold isBranch
    cases v <;> simp only [Leaf.Is] at this <;> simp [this]
  simp [appendLeaf, alloc, Res.bind_eq, hr, Res.ok_bind, hb]

/-- C61, refuted for words as indices: a step that is no number leads to the first element of an array. -/
theorem C61_word_index_refuted {F : F64} {lt : Bool} {h : Heap} {r : Ref} {name : Option Bytes} {kids : List Tree} {f : List Nat} {s : Bytes}
    (hh : Holds h r (.branch name true kids) f) (hk : kids ≠ []) (hok : (Seg.name s).Ok) (hd : ∀ c, s.head? = some c → charIsDigit c = false ∧ c ≠ 45) :
    query F lt 1 h (some r) s = .ok (reach h r [0]) := by
  obtain ⟨n, hr, hs, _, _⟩ := hh
  obtain ⟨b, a, fs, b1, b2, b3, b4, b5, b6, b7⟩ := branch_facts hr hs
  obtain ⟨hne, hc, hl⟩ := Seg.clean hok
  simp only [Seg.text] at hne hc hl
  have h0 : (0 : UInt8) ∉ s := fun e => (hc 0 e).1 rfl
  obtain ⟨tl, hbuf⟩ := stepBuf_run lt [] h0 hl
  rw [List.append_nil] at hbuf
  have hsk := skip_seg hok (rest := []) (.inl rfl)
  simp only [Seg.text, List.append_nil] at hsk
  obtain ⟨x, xs, hx⟩ := List.exists_cons_of_ne_nil hne
  have hat : Csv.at_ (s ++ [0]) 0 = .ok x := by rw [hx]; simp [Csv.at_, Res.ofOption]
  have hx91 : x ≠ 91 := by
    intro e
    have := hok.2.1
    rw [hx, e] at this
    simp at this
  have hx47 : x ≠ 47 := (hc x (by rw [hx]; simp)).2
  have hnum := scan_none lt x (xs ++ 0 :: tl) (hd x (by rw [hx]; rfl)).1 (hd x (by rw [hx]; rfl)).2
  have hsl : skipSlash s = s := by rw [hx]; simp [skipSlash, hx47]
  have hkl : 0 < kids.length := List.length_pos_iff.mpr hk
  have hidx : queryIndex lt b a (s ++ 0 :: tl) = .ok (some (.cell b 0)) := by
    rw [hx]
    simp only [queryIndex, Res.bind_eq, List.cons_append, hnum, Res.ok_bind, Res.pure_eq]
    rw [if_pos ⟨by omega, by omega⟩]
    rfl
  simp only [if_true] at b5
  have hstep : queryStep F lt h r n s = .ok (some (.cell b 0), s.length) := by
    unfold queryStep
    simp only [Res.bind_eq]
    rw [hsk, Res.ok_bind, hbuf, Res.ok_bind, hat, Res.ok_bind, b1]
    simp only [Res.ofOption]
    simp only [Res.ok_bind, b2]
    rw [if_neg hx91, if_neg (by rw [b5]; decide), hidx, Res.ok_bind]
    rfl
  simp only [query, hsl, if_neg hne, Res.bind_eq, hr, Res.ok_bind, b6, Bool.not_true, Bool.false_eq_true, if_false, hstep, Nat.lt_irrefl]
  simp [reach, b7 0 (by omega)]

end Verif.Adt
