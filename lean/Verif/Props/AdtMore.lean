import Verif.Proof.AdtQuery
import Verif.Proof.AdtDestroy
/-! # Searching, querying and destroying data trees (C61) -/
namespace Verif.Adt
open Verif.Fmt

/-- `adt_find` gives the pointer to the first node with the name: the first child of the object, and otherwise, in a deep search, the first one below a child, child
after child. It is null if there is none. -/
theorem C61_find {h : Heap} {r : Ref} {t : Tree} {f : List Nat} {name : Bytes} (rest : Bytes) (deep : Bool) {fuel : Nat} (hh : Holds h r t f) (hn : t.Named)
    (h0 : (0 : UInt8) ∉ name) (hf : t.depth ≤ fuel) : find fuel h r (name ++ 0 :: rest) deep = .ok ((t.find name deep).bind (reach h r)) ∧
      ∀ p, t.find name deep = some p → ∃ k x, t.at_ p = some k ∧ k.name = some name ∧ reach h r p = some x := by
  obtain ⟨n, hr, hs, _, _⟩ := hh
  have hd : (if deep then t.depth else 1) ≤ fuel := by
    split
    · exact hf
    · cases t <;> simp only [Tree.depth] at hf <;> omega
  refine ⟨find_run h0 fuel h r n t f deep hr hs hn hd, ?_⟩
  intro p hp
  obtain ⟨k, k1, k2, _⟩ := find_at name t deep p hp
  obtain ⟨x, _, _, q1, _⟩ := reach_at p r n t k f hr hs k1
  exact ⟨k, x, k1, k2, q1⟩

/-- `adt_query` follows the steps of its text, with or without a slash in front, and gives the pointer to the node they lead to, or null. -/
theorem C61_query {F : F64} {lt : Bool} {real : UInt64 → Bytes} {h : Heap} {r : Ref} {t : Tree} {f : List Nat} {ss : List Seg} {res : Option Path} (slash : Bool) {fuel : Nat}
    (hh : Holds h r t f) (hn : t.Named) (hp : Plain F lt real t) (hok : ∀ s ∈ ss, s.Ok) (hw : Walks real ss t res) (hf : ss.length < fuel) :
    query F lt fuel h (some r) ((if slash then b!"/" else []) ++ joined ss) = .ok (res.bind (reach h r)) := by
  obtain ⟨n, hr, hs, _, _⟩ := hh
  refine query_run hw hr hs hn hp hok hf ?_
  cases slash with
  | false => exact skipSlash_joined hok
  | true => simp [skipSlash]

/-- Where the steps lead, there is a node. -/
theorem C61_query_place {real : UInt64 → Bytes} {ss : List Seg} {t : Tree} {res : Option Path} (hw : Walks real ss t res) : ∀ p, res = some p → ∃ k, t.at_ p = some k := by
  induction hw with
  | done t => intro p hp; cases hp; exact ⟨t, by simp [Tree.at_]⟩
  | leaf => intro p hp; cases hp
  | nowhere => intro p hp; cases hp
  | on s ss name arr kids p k q hfit hto hat hw ih =>
    intro p' hp
    cases q with
    | none => cases hp
    | some q =>
      cases hp
      obtain ⟨x, hx⟩ := ih q rfl
      exact ⟨x, by rw [at_append, hat]; exact hx⟩

/-- `adt_destroy_branch` frees every array of the tree, each once (freeing one twice, or reading one that was freed, is `ub`), and nothing else: the other trees in
memory are as they were. -/
theorem C61_destroy {h : Heap} {r : Ref} {t : Tree} {f : List Nat} {fuel : Nat} (hh : Holds h r t f) (hf : t.depth ≤ fuel) :
    ∃ h', destroyBranch fuel h r = .ok h' ∧ (∀ b ∈ f, h'.blocks[b]? = some none) ∧ (∀ b, b ∉ f → (∀ i, r ≠ .cell b i) → h'.blocks[b]? = h.blocks[b]?) ∧
      ∀ r2 t2 f2, Holds h r2 t2 f2 → Apart r f r2 f2 → Holds h' r2 t2 f2 := by
  obtain ⟨m, h', h1, hsz, hfr, hw, w1, w2, w3⟩ := destroy_run fuel t h r f hf hh
  obtain ⟨v1, v2, v3, v4, v5⟩ := write_facts w1
  refine ⟨h', h1, hfr, fun b hb hr => by rw [w3 b hb, v3 b hr], ?_⟩
  intro r2 t2 f2 ⟨n2, hr2, hs2, hnd2, hoff2⟩ ⟨d1, d2, d3, d4⟩
  refine ⟨n2, ?_, Shows.frame _ _ _ hs2 ?_, hnd2, hoff2⟩
  · rw [← hr2]
    cases r2 with
    | cell b i =>
      refine read_same (by simp) ?_
      intro b0 i0 e
      cases e
      rw [w3 b (d3 b i rfl).1, v3 b (d3 b i rfl).2]
    | var k =>
      simp only [Heap.read, w2]
      cases r with
      | cell b i => rw [v4 ⟨b, i, rfl⟩]
      | var k2 =>
        simp only [Heap.write] at w1
        split at w1
        · cases w1
          simp only
          rw [List.getElem?_set_ne (by intro e; exact d4 (by rw [e]))]
        · cases w1
  · intro b hb
    rw [w3 b (d1 b hb), v3 b fun i e => d2 b i e hb]

/-! ### Nodes do not know their parents -/

/-- No node in memory has a parent. -/
def Orphans (h : Heap) : Prop := (∀ n ∈ h.vars, n.parent = none) ∧ ∀ a, some a ∈ h.blocks → ∀ n, some n ∈ a.cells → n.parent = none

theorem Orphans.read {h : Heap} (ho : Orphans h) {r : Ref} {n : Node} (hr : h.read r = .ok n) : n.parent = none := by
  cases r with
  | var k =>
    simp only [Heap.read, Res.ofOption] at hr
    cases hk : h.vars[k]? with
    | none => rw [hk] at hr; cases hr
    | some x => rw [hk] at hr; cases hr; exact ho.1 _ (List.mem_of_getElem? hk)
  | cell b i =>
    simp only [Heap.read, cellAt, Arr.getCell] at hr
    cases hb : h.block b with
    | ok a =>
      rw [hb, Res.ok_bind] at hr
      cases hc : a.cells[i]? with
      | none => rw [hc] at hr; cases hr
      | some c =>
        rw [hc] at hr
        cases hr
        cases c with
        | none => rfl
        | some x => exact ho.2 a (List.mem_of_getElem? (block_eq.mp hb)) x (List.mem_of_getElem? hc)
    | ub => rw [hb] at hr; cases hr
    | stop => rw [hb] at hr; cases hr
    | hang => rw [hb] at hr; cases hr

theorem Orphans.block {h : Heap} (ho : Orphans h) {b : Nat} {a : Arr Node} (hb : h.block b = .ok a) : ∀ n, some n ∈ a.cells → n.parent = none :=
  ho.2 a (List.mem_of_getElem? (block_eq.mp hb))

theorem Orphans.set {h : Heap} (ho : Orphans h) {b : Nat} {x : Option (Arr Node)} (hx : ∀ a, x = some a → ∀ n, some n ∈ a.cells → n.parent = none) : Orphans (h.setBlock b x) := by
  refine ⟨ho.1, ?_⟩
  intro a ha n hn
  simp only [Heap.setBlock] at ha
  rcases List.mem_or_eq_of_mem_set ha with h1 | h1
  · exact ho.2 a h1 n hn
  · exact hx a h1.symm n hn

theorem Orphans.write {h h' : Heap} (ho : Orphans h) {r : Ref} {n : Node} (hw : h.write n r = .ok h') (hn : n.parent = none) : Orphans h' := by
  cases r with
  | var k =>
    simp only [Heap.write] at hw
    split at hw
    · cases hw
      refine ⟨?_, ho.2⟩
      intro m hm
      rcases List.mem_or_eq_of_mem_set hm with h1 | h1
      · exact ho.1 m h1
      · rw [h1]; exact hn
    · cases hw
  | cell b i =>
    simp only [Heap.write, Arr.setCell] at hw
    cases hb : h.block b with
    | ok a =>
      rw [hb, Res.ok_bind] at hw
      split at hw
      · rw [Res.ok_bind] at hw
        cases hw
        refine ho.set ?_
        intro a' ha m hm
        cases ha
        rcases List.mem_or_eq_of_mem_set hm with h1 | h1
        · exact ho.block hb m h1
        · cases h1; exact hn
      · cases hw
    | ub => rw [hb] at hw; cases hw
    | stop => rw [hb] at hw; cases hw
    | hang => rw [hb] at hw; cases hw

theorem moveCells_mem {a a' : Arr Node} {d s n : Nat} (h : a.moveCells d s n = .ok a') : ∀ c ∈ a'.cells, c ∈ a.cells := by
  unfold Arr.moveCells at h
  split at h
  · cases h; exact fun c hc => hc
  · split at h
    · cases h
      intro c hc
      simp only [List.mem_append] at hc
      rcases hc with (hc | hc) | hc
      · exact List.mem_of_mem_take hc
      · exact List.mem_of_mem_drop (List.mem_of_mem_take hc)
      · exact List.mem_of_mem_drop hc
    · cases h

theorem setCapacity_mem {heap mem ok : Bool} {a a' : Arr Node} {m : Nat} (h : Arr.setCapacity .cpp heap mem a m = .ok (ok, a')) : ∀ c ∈ a'.cells, c ∈ a.cells ∨ c = none := by
  unfold Arr.setCapacity at h
  simp only [Res.assert, Res.bind_eq, Res.pure_eq, Res.ok_bind, reduceCtorEq, false_implies, if_true, false_and, if_false] at h
  split at h
  · cases h; exact fun c hc => .inl hc
  · split at h
    · cases h; exact fun c hc => .inl hc
    · split at h
      · cases h; exact fun c hc => .inl hc
      · split at h
        · cases h
          intro c hc
          simp only [List.mem_append, List.mem_replicate] at hc
          rcases hc with hc | hc
          · exact .inl (List.mem_of_mem_take hc)
          · exact .inr hc.2
        · cases h

theorem grow_mem {heap mem ok : Bool} {a a' : Arr Node} {m : Nat} (h : Arr.grow .cpp heap mem a m = .ok (ok, a')) : ∀ c ∈ a'.cells, c ∈ a.cells ∨ c = none := by
  unfold Arr.grow at h
  by_cases hm : m > 0
  · simp only [Res.assert, hm, if_true, Res.bind_eq, Res.ok_bind] at h
    exact setCapacity_mem h
  · simp only [Res.assert, hm, if_false, Res.bind_eq] at h
    cases h

theorem appendAt_mem {heap mem ok : Bool} {a a' : Arr Node} {x : Node} {i : Nat} (h : Arr.appendAt .cpp heap mem a x i = .ok (ok, a')) : ∀ c ∈ a'.cells, c ∈ a.cells ∨ c = none := by
  unfold Arr.appendAt at h
  simp only [reduceCtorEq, false_and, if_false, Res.bind_eq, Res.pure_eq] at h
  have key : ∀ (ok' : Bool) (a1 : Arr Node), (∀ c ∈ a1.cells, c ∈ a.cells ∨ c = none) →
      (if ok' = false then Res.ok (false, a1) else (a1.moveCells ((if i ≥ a.num then a.num - 1 else i) + 1) (if i ≥ a.num then a.num - 1 else i)
        (a1.num - (if i ≥ a.num then a.num - 1 else i))).bind fun a'' => Res.ok (true, { a'' with num := a''.num + 1 })) = Res.ok (ok, a') →
      ∀ c ∈ a'.cells, c ∈ a.cells ∨ c = none := by
    intro ok' a1 h1 h
    split at h
    · cases h; exact h1
    · cases hm : a1.moveCells ((if i ≥ a.num then a.num - 1 else i) + 1) (if i ≥ a.num then a.num - 1 else i) (a1.num - (if i ≥ a.num then a.num - 1 else i)) with
      | ok a2 =>
        rw [hm, Res.ok_bind] at h
        cases h
        exact fun c hc => h1 c (moveCells_mem hm c hc)
      | ub => rw [hm] at h; cases h
      | stop => rw [hm] at h; cases h
      | hang => rw [hm] at h; cases h
  split at h
  · cases hg : Arr.grow .cpp heap mem a (a.capacity + 1) with
    | ok x =>
      rw [hg, Res.ok_bind] at h
      exact key x.1 x.2 (grow_mem hg) h
    | ub => rw [hg] at h; cases h
    | stop => rw [hg] at h; cases h
    | hang => rw [hg] at h; cases h
  · rw [Res.ok_bind] at h
    exact key true a (fun c hc => .inl hc) h

theorem Orphans.put {h h' : Heap} (ho : Orphans h) {p : Ref} {n : Node} {b b' : Nat} {a a' : Arr Node} (hn : n.parent = none) (ha : ∀ m, some m ∈ a'.cells → m.parent = none)
    (hp : putArray h p n b a a' = .ok (b', h')) : Orphans h' := by
  unfold putArray at hp
  split at hp
  · cases hp
    refine ho.set ?_
    intro x hx; cases hx; exact ha
  · cases hw : Heap.write { h with blocks := h.blocks.set b none ++ [some a'] } { n with nodes := some h.blocks.length } p with
    | ok h2 =>
      rw [hw, Res.ok_bind] at hp
      cases hp
      refine Orphans.write (h := { h with blocks := h.blocks.set b none ++ [some a'] }) ?_ hw hn
      refine ⟨ho.1, ?_⟩
      intro x hx m hm
      simp only [List.mem_append, List.mem_singleton] at hx
      rcases hx with hx | hx
      · rcases List.mem_or_eq_of_mem_set hx with h1 | h1
        · exact ho.2 x h1 m hm
        · cases h1
      · cases hx; exact ha m hm
    | ub => rw [hw] at hp; cases hp
    | stop => rw [hw] at hp; cases hp
    | hang => rw [hw] at hp; cases hp

theorem Orphans.alloc {heap mem : Bool} {h h' : Heap} (ho : Orphans h) {p : Option Ref} {x : Option Ref} {i : Int} (hp : allocAt .cpp heap mem h p i = .ok (x, h')) : Orphans h' := by
  unfold allocAt at hp
  cases p with
  | none => cases hp; exact ho
  | some p =>
    simp only [Res.bind_eq, Res.pure_eq] at hp
    cases hr : h.read p with
    | ok n =>
      rw [hr, Res.ok_bind] at hp
      split at hp
      · cases hp; exact ho
      · split at hp
        · cases hp; exact ho
        · rename_i b hb0
          cases hb : h.block b with
          | ok a =>
            rw [hb, Res.ok_bind] at hp
            split at hp
            · cases hp; exact ho
            · cases ha : Arr.appendAt .cpp heap mem a { parent := some p } i.toNat with
              | ok y =>
                obtain ⟨ok, a'⟩ := y
                rw [ha, Res.ok_bind] at hp
                simp only at hp
                split at hp
                · cases hp; exact ho
                · cases hq : putArray h p n b a a' with
                  | ok z =>
                    obtain ⟨b', h2⟩ := z
                    rw [hq, Res.ok_bind] at hp
                    cases hp
                    refine ho.put (ho.read hr) ?_ hq
                    intro m hm
                    rcases appendAt_mem ha _ hm with h1 | h1
                    · exact ho.block hb m h1
                    · cases h1
                  | ub => rw [hq] at hp; cases hp
                  | stop => rw [hq] at hp; cases hp
                  | hang => rw [hq] at hp; cases hp
              | ub => rw [ha] at hp; cases hp
              | stop => rw [ha] at hp; cases hp
              | hang => rw [ha] at hp; cases hp
          | ub => rw [hb] at hp; cases hp
          | stop => rw [hb] at hp; cases hp
          | hang => rw [hb] at hp; cases hp
    | ub => rw [hr] at hp; cases hp
    | stop => rw [hr] at hp; cases hp
    | hang => rw [hr] at hp; cases hp

theorem bind_ok {α β : Type} {x : Res α} {g : α → Res β} {y : β} (h : x.bind g = .ok y) : ∃ v, x = .ok v ∧ g v = .ok y := by
  cases x with
  | ok v => exact ⟨v, rfl, h⟩
  | ub => cases h
  | stop => cases h
  | hang => cases h

theorem Orphans.alloc' {heap mem : Bool} {h h' : Heap} (ho : Orphans h) {p : Option Ref} {x : Option Ref} (hp : Adt.alloc .cpp heap mem h p = .ok (x, h')) : Orphans h' := by
  unfold Adt.alloc at hp
  cases p with
  | none => cases hp; exact ho
  | some p =>
    simp only [Res.bind_eq, Res.pure_eq] at hp
    obtain ⟨n, _, hp⟩ := bind_ok hp
    split at hp
    · cases hp; exact ho
    · split at hp
      · cases hp; exact ho
      · obtain ⟨a, _, hp⟩ := bind_ok hp
        exact ho.alloc hp

theorem Orphans.leaf {h h' : Heap} (ho : Orphans h) {r : Ref} {name : Option Bytes} {v : Leaf} (hp : setLeaf h r name v = .ok h') : Orphans h' := by
  have key : ∀ ty h1, makeLeaf h r name ty = .ok h1 → Orphans h1 := by
    intro ty h1 h2
    unfold makeLeaf at h2
    simp only [Res.bind_eq] at h2
    obtain ⟨_, _, h2⟩ := bind_ok h2
    obtain ⟨n, hn, h2⟩ := bind_ok h2
    exact ho.write h2 (show n.parent = none from ho.read hn)
  cases v with
  | str s =>
    simp only [setLeaf, setStr, Res.bind_eq] at hp
    obtain ⟨h1, e1, hp⟩ := bind_ok hp
    obtain ⟨n, hn, hp⟩ := bind_ok hp
    exact (key _ _ e1).write hp (show n.parent = none from (key _ _ e1).read hn)
  | flt s =>
    simp only [setLeaf, setFlt, Res.bind_eq] at hp
    obtain ⟨h1, e1, hp⟩ := bind_ok hp
    obtain ⟨n, hn, hp⟩ := bind_ok hp
    exact (key _ _ e1).write hp (show n.parent = none from (key _ _ e1).read hn)
  | int s =>
    simp only [setLeaf, setInt, Res.bind_eq] at hp
    obtain ⟨h1, e1, hp⟩ := bind_ok hp
    obtain ⟨n, hn, hp⟩ := bind_ok hp
    exact (key _ _ e1).write hp (show n.parent = none from (key _ _ e1).read hn)

theorem Orphans.make {mem : Bool} {h h' : Heap} (ho : Orphans h) {r : Ref} {name : Option Bytes} {arr e : Bool} (hp : makeBranch mem h r name arr = .ok (e, h')) : Orphans h' := by
  unfold makeBranch at hp
  simp only [Res.bind_eq, Res.pure_eq] at hp
  obtain ⟨n, hn, hp⟩ := bind_ok hp
  obtain ⟨a, ha, hp⟩ := bind_ok hp
  cases a with
  | none =>
    obtain ⟨h1, hw, hp⟩ := bind_ok hp
    cases hp
    exact ho.write hw (show n.parent = none from ho.read hn)
  | some a =>
    obtain ⟨h1, hw, hp⟩ := bind_ok hp
    cases hp
    refine Orphans.write (h := { h with blocks := h.blocks ++ [some a] }) ?_ hw (show n.parent = none from ho.read hn)
    refine ⟨ho.1, ?_⟩
    intro x hx m hm
    simp only [List.mem_append, List.mem_singleton] at hx
    rcases hx with hx | hx
    · exact ho.2 x hx m hm
    · cases hx
      simp only [Arr.init, Arr.initReserve, Arr.growFormula, Res.assert, Res.bind_eq, Res.pure_eq] at ha
      obtain ⟨_, _, ha⟩ := bind_ok ha
      split at ha
      · cases ha
        simp at hm
      · cases ha

/-- Removing a node that has no parent stops the program. -/
theorem remove_orphan {h : Heap} (ho : Orphans h) {r : Ref} {n : Node} (hr : h.read r = .ok n) : removeNode h r = .stop := by
  unfold removeNode
  simp [Res.bind_eq, hr, Res.ok_bind, ho.read hr, Res.assert]

theorem Orphans.edit {heap : Bool} {root : Ref} {h h' : Heap} {x : Option Ref} (ho : Orphans h) (e : Edit) (hp : e.run .cpp heap root h = .ok (x, h')) : Orphans h' := by
  cases e with
  | leaf p name v =>
    simp only [Edit.run] at hp
    obtain ⟨r, _, hp⟩ := bind_ok hp
    unfold appendLeaf at hp
    simp only [Res.bind_eq, Res.pure_eq] at hp
    obtain ⟨⟨o, h1⟩, ha, hp⟩ := bind_ok hp
    cases o with
    | none => cases hp; exact ho.alloc' ha
    | some o =>
      obtain ⟨h2, hs, hp⟩ := bind_ok hp
      cases hp
      exact (ho.alloc' ha).leaf hs
  | branch p name arr =>
    simp only [Edit.run] at hp
    obtain ⟨r, _, hp⟩ := bind_ok hp
    unfold appendBranch at hp
    simp only [Res.bind_eq, Res.pure_eq] at hp
    obtain ⟨⟨o, h1⟩, ha, hp⟩ := bind_ok hp
    cases o with
    | none => cases hp; exact ho.alloc' ha
    | some o =>
      obtain ⟨⟨e, h2⟩, hs, hp⟩ := bind_ok hp
      have h2o := (ho.alloc' ha).make hs
      simp only at hp
      split at hp
      · obtain ⟨h3, hr3, hp⟩ := bind_ok hp
        unfold removeNode at hr3
        simp only [Res.bind_eq, Res.pure_eq] at hr3
        obtain ⟨n, hn, hr3⟩ := bind_ok hr3
        rw [h2o.read hn] at hr3
        simp [Res.assert] at hr3
      · cases hp; exact h2o
  | set p name v =>
    simp only [Edit.run] at hp
    obtain ⟨r, _, hp⟩ := bind_ok hp
    obtain ⟨h1, hs, hp⟩ := bind_ok hp
    cases hp
    exact ho.leaf hs

theorem Orphans.edits {heap : Bool} {root : Ref} : ∀ (es : List Edit) {h h' : Heap}, Orphans h → editsRun .cpp heap root es h = .ok h' → Orphans h'
  | [], h, h', ho, hp => by cases hp; exact ho
  | e :: es, h, h', ho, hp => by
    simp only [editsRun] at hp
    obtain ⟨x, h1, hp⟩ := bind_ok hp
    exact Orphans.edits es (ho.edit e h1) hp

/-- C61, refuted for removing: in a tree that was built by appending and setting, no node can be removed. `adt_append_*` does not record the parent (the array
function it uses drops the element it is given), and `adt_remove_node` asserts it. Swapping two nodes reads the children of a null pointer. -/
theorem C61_remove_refuted {heap : Bool} {k : Nat} {name : Option Bytes} {arr : Bool} {vars : List Node} {h0 h : Heap} (hv : ∀ n ∈ vars, n.parent = none) {es : List Edit}
    (hm : makeBranch true ⟨vars, []⟩ (.var k) name arr = .ok (false, h0)) (he : editsRun .cpp heap (.var k) es h0 = .ok h) :
    (∀ r n, h.read r = .ok n → removeNode h r = .stop) ∧ ∀ r r2 n, h.read r = .ok n → swapNodes h r r2 = .ub := by
  have ho : Orphans h := Orphans.edits es (Orphans.make (h := ⟨vars, []⟩) ⟨hv, by simp⟩ hm) he
  refine ⟨fun r n hr => remove_orphan ho hr, ?_⟩
  intro r r2 n hr
  simp [swapNodes, Res.bind_eq, hr, Res.ok_bind, ho.read hr, Res.ofOption]

end Verif.Adt
