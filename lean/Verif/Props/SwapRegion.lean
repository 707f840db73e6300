import Verif.Model.SwapRegion
import Verif.Props.CondBlock
import Verif.Props.CStr
/-!
# C68 Regions whose implementation is exchanged
-/
namespace Verif.Ast

/-! ## Specification -/

/-- A pragma that begins the region `name` (or looks like it: the text is searched for). -/
def Begins (name : Bytes) (n : Node) : Prop := n.type = .Preprocess_Pragma ∧ b!"region " ++ name <:+: n.content
/-- A pragma that ends it. -/
def Ends (name : Bytes) (n : Node) : Prop := n.type = .Preprocess_Pragma ∧ b!"endregion " ++ name <:+: n.content

/-- What the new body says if every region `name` of the entries is exchanged for `cs`: the two pragmas and all between them are gone, `cs` is there instead, and everything
else follows in order. The entry behind a region is taken as it is. -/
inductive Swaps (f : Nat → Node) (name : Bytes) (cs : List Node) : List Nat → List Node → Prop
  | nil : Swaps f name cs [] []
  | keep {e : Nat} {l : List Nat} {k : List Node} : ¬ Begins name (f e) → Swaps f name cs l k → Swaps f name cs (e :: l) ((f e).payload :: k)
  | swap {o c e : Nat} {i l : List Nat} {k : List Node} : Begins name (f o) → (∀ y ∈ i, ¬ Ends name (f y)) → Ends name (f c) → Swaps f name cs l k →
      Swaps f name cs (o :: (i ++ c :: e :: l)) (cs ++ (f e).payload :: k)

/-- `gen` makes a new body whose entries say `cs`, and changes nothing that exists. -/
def Makes (gen : Heap → Res (Heap × Nat)) (cs : List Node) : Prop :=
  ∀ h : Heap, 0 < h.next → ∃ h1 g ms y, gen h = .ok (h1, g) ∧ IsBody h1 g ms ∧ isBodyType (h1.cell g).type = true ∧ ms.getLast? = some y ∧ (h1.cell y).back = 0 ∧
    (∀ e ∈ ms, isBodyType (h1.cell e).type = false) ∧ ms.map (fun e => (h1.cell e).payload) = cs ∧ h.next ≤ g ∧ (∀ e ∈ ms, h.next ≤ e) ∧ h.next ≤ h1.next ∧
    ∀ q, h.Valid q → h1.cell q = h.cell q

/-! ## Appending -/

/-- Entries that say `ps` were appended to `b`, and nothing else changed. -/
def Wrote (h h' : Heap) (c b : Nat) (m l : List Nat) (x : Nat) (ps : List Node) : Prop :=
  ∃ l', Reading h' c b m (l ++ l') x ∧ l'.map (fun e => (h'.cell e).payload) = ps ∧ h.next ≤ h'.next ∧
    (∀ q ∈ m, h'.cell q = h.cell q) ∧ ∀ q, h.Valid q → q ≠ b → (h'.cell q).payload = (h.cell q).payload

variable {h : Heap} {c b x : Nat} {m l : List Nat}

theorem Wrote.refl (r : Reading h c b m l x) : Wrote h h c b m l x [] := ⟨[], by simpa using r, rfl, Nat.le_refl _, fun _ _ => rfl, fun _ _ _ => rfl⟩

theorem Wrote.same {h' : Heap} {ps : List Node} (r : Wrote h h' c b m l x ps) : ∀ q ∈ m, h'.cell q = h.cell q := by
  obtain ⟨_, _, _, _, k, _⟩ := r
  exact k

/-- Two stretches of work, one after the other. -/
theorem Wrote.andThen {h1 : Heap} {F : Res Heap} {ps qs : List Node} (k1 : Wrote h h1 c b m l x ps)
    (key : ∀ l1, Reading h1 c b m l1 x → ∃ h', F = .ok h' ∧ Wrote h1 h' c b m l1 x qs) : ∃ h', F = .ok h' ∧ Wrote h h' c b m l x (ps ++ qs) := by
  obtain ⟨l1, r1, p1, g1, s1, w1⟩ := k1
  obtain ⟨h2, e2, l2, r2, p2, g2, s2, w2⟩ := key _ r1
  refine ⟨h2, e2, l1 ++ l2, by simpa using r2, ?_, Nat.le_trans g1 g2, fun q hq => (s2 q hq).trans (s1 q hq), fun q v hq => ?_⟩
  · rw [List.map_append, p2, ← p1]
    congr 1
    apply List.map_congr_left
    intro e he
    exact w2 e (r1.out.chain.valid e (by simp [he])) (fun hh => r1.out.self (by simp [← hh, he]))
  · rw [w2 q ⟨v.1, Nat.lt_of_lt_of_le v.2 g1⟩ hq, w1 q v hq]

/-- A code that is in some body is appended: a copy of it. Whoever is reading another body does not notice. -/
theorem append_copy (hb : IsBody h b l) {e : Nat} (ve : h.Valid e) (heb : e ≠ b) (ht : isBodyType (h.cell e).type = false) (hp : (h.cell e).parent ≠ 0) (fuel : Nat) :
    ∃ h1, bodyAppend fuel h b e = .ok h1 ∧ ∀ {c m x}, Reading h c b m l x → Reading h1 c b m (l ++ [h.next]) x ∧ Wrote h h1 c b m l x [(h.cell e).payload] := by
  obtain ⟨h1, o, e1, hb1, ha⟩ := append_spec hb ve heb
  have ho : o = h.next := by rw [ha.fresh, if_neg hp]
  subst ho
  refine ⟨h1, by rw [bodyAppend_plain (Nat.ne_of_gt hb.valid.1) ve ht, e1], fun {c m x} r => ?_⟩
  have hval : ∀ q, h.Valid q → h1.Valid q := fun q w => ⟨w.1, Nat.lt_of_lt_of_le w.2 ha.grow⟩
  have hold : ∀ q, h.Valid q → q ≠ b → q ∉ l → h1.cell q = h.cell q := by
    intro q w hq hql
    rw [ha.frame q w hq (Nat.ne_of_lt w.2), if_neg (fun e' => hql (List.mem_of_getLast? e'))]
  have hml : ∀ q ∈ m, q ∉ l := by
    intro q hq hql
    exact r.ne ((r.out.parents q hql).symm.trans (r.src.parents q hq))
  have hm : ∀ q ∈ m, h1.cell q = h.cell q := fun q hq => hold q (r.validOf hq) (fun e' => r.outNot (e' ▸ hq)) (hml q hq)
  have hcc : h1.cell c = h.cell c := hold c r.src.valid (Ne.symm r.ne) r.srcNot
  have hc1 : IsBody h1 c m :=
    { next := hb1.next, valid := hval c r.src.valid, count := by rw [hcc]; exact r.src.count
      chain := by
        rw [hcc]
        exact r.src.chain.congr fun q hq => ⟨hval q (r.validOf hq), by rw [hm q hq]⟩
      first := by rw [hcc]; exact r.src.first
      last := by rw [hcc]; exact r.src.last
      parents := by intro q hq; rw [hm q hq]; exact r.src.parents q hq
      self := r.src.self, nodup := r.src.nodup }
  have rr : Reading h1 c b m (l ++ [h.next]) x := by
    refine ⟨hb1, hc1, r.ne, r.outNot, ?_, ?_, r.last, ?_⟩
    · simp only [List.mem_append, List.mem_singleton, not_or]
      exact ⟨r.srcNot, Nat.ne_of_lt r.src.valid.2⟩
    · intro q hq
      rw [hm q hq]
      exact r.plain q hq
    · rw [hm x r.lastIn]
      exact r.ends
  exact ⟨rr, [h.next], rr, by simp [ha.node], ha.grow, hm, ha.same⟩

/-- A whole body is appended while another one is being read. -/
theorem append_loop {g y : Nat} {ms : List Nat} : ∀ (m2 m1 : List Nat) {h : Heap} {l : List Nat} {fuel : Nat}, ms = m1 ++ m2 → Reading h g b ms l y → Reading h c b m l x → m2.length < fuel →
    ∃ h', bodyAppendLoop fuel h b g (ahead h y m2) = .ok h' ∧ Wrote h h' c b m l x (m2.map fun e => (h.cell e).payload) := by
  intro m2
  induction m2 with
  | nil =>
    intro m1 h l fuel hm rg r hfu
    obtain ⟨f, rfl⟩ : ∃ f, fuel = f + 1 := ⟨fuel - 1, by simp at hfu; omega⟩
    refine ⟨h, ?_, Wrote.refl r⟩
    rw [bodyAppendLoop, get_ok rg.src.valid, Res.ok_bind, rg.src.last y rg.last, get_ok (rg.validOf rg.lastIn), Res.ok_bind, if_pos (show ahead h y [] = (h.cell y).back from rfl)]
  | cons e m2 ih =>
    intro m1 h l fuel hm rg r hfu
    obtain ⟨f, rfl⟩ : ∃ f, fuel = f + 1 := ⟨fuel - 1, by simp at hfu; omega⟩
    have em : e ∈ ms := by rw [hm]; simp
    have ve := rg.validOf em
    have hpe : (h.cell e).parent ≠ 0 := by rw [rg.src.parents e em]; exact Nat.ne_of_gt rg.src.valid.1
    obtain ⟨h1, e1, k⟩ := append_copy rg.out ve (fun e' => rg.outNot (e' ▸ em)) (rg.plain e em) hpe f
    obtain ⟨rg1, kg⟩ := k rg
    obtain ⟨r1, kr⟩ := k r
    have hsame := kg.same
    have hne : e ≠ (h.cell y).back := fun e' => rg.ends (e' ▸ em)
    have e0 : bodyAppendLoop (f + 1) h b g (ahead h y (e :: m2)) = bodyAppendLoop f h1 b g (ahead h1 y m2) := by
      rw [bodyAppendLoop, get_ok rg.src.valid, Res.ok_bind, rg.src.last y rg.last, get_ok (rg.validOf rg.lastIn), Res.ok_bind]
      show (if e = (h.cell y).back then _ else _) = _
      rw [if_neg hne]
      show (bodyAppend f h b e).bind _ = _
      rw [e1, Res.ok_bind]
      show (Res.assert (e ≠ 0)).bind _ = _
      rw [Res.assert_true (Nat.ne_of_gt ve.1), Res.ok_bind]
      show (h1.get e).bind _ = _
      rw [get_ok (rg1.validOf em), Res.ok_bind, rg1.next hm]
    rw [e0]
    obtain ⟨h2, e2, -⟩ := ih (m1 ++ [e]) (by simp [hm]) rg1 r1 (by simp at hfu; omega)
    have hmap : (m2.map fun q => (h1.cell q).payload) = m2.map fun q => (h.cell q).payload :=
      List.map_congr_left fun q hq => by rw [hsame q (by rw [hm]; simp [hq])]
    exact kr.andThen (qs := m2.map fun q => (h.cell q).payload) fun l1 r1' => by
      have hl : l1 = l ++ [h.next] := by
        have a := r1'.out.entries_eq
        rw [r1.out.entries_eq] at a
        cases a
        rfl
      subst hl
      rw [← hmap]
      exact ih (m1 ++ [e]) (by simp [hm]) rg1 r1 (by simp at hfu; omega)

/-- What `gen` makes is appended. -/
theorem append_made {gen : Heap → Res (Heap × Nat)} {cs : List Node} (hg : Makes gen cs) (r : Reading h c b m l x) {fuel : Nat} (hfu : cs.length < fuel) :
    ∃ h1 g h', gen h = .ok (h1, g) ∧ bodyAppend fuel h1 b g = .ok h' ∧ Wrote h h' c b m l x cs := by
  obtain ⟨h1, g, ms, y, e1, hbg, htg, hy, hyb, hpl, hcs, hgg, hgm, hgr, hold⟩ := hg h r.out.next
  have hval : ∀ q, h.Valid q → h1.Valid q := fun q w => ⟨w.1, Nat.lt_of_lt_of_le w.2 hgr⟩
  have move : ∀ {d : Nat} {k : List Nat}, IsBody h d k → IsBody h1 d k := by
    intro d k hd
    have hdc := hold d hd.valid
    have hk : ∀ q ∈ k, h1.cell q = h.cell q := fun q hq => hold q (hd.chain.valid q hq)
    exact
      { next := Nat.lt_of_lt_of_le hd.next hgr, valid := hval d hd.valid, count := by rw [hdc]; exact hd.count
        chain := by
          rw [hdc]
          exact hd.chain.congr fun q hq => ⟨hval q (hd.chain.valid q hq), by rw [hk q hq]⟩
        first := by rw [hdc]; exact hd.first
        last := by rw [hdc]; exact hd.last
        parents := by intro q hq; rw [hk q hq]; exact hd.parents q hq
        self := hd.self, nodup := hd.nodup }
  have hm : ∀ q ∈ m, h1.cell q = h.cell q := fun q hq => hold q (r.validOf hq)
  have r1 : Reading h1 c b m l x := ⟨move r.out, move r.src, r.ne, r.outNot, r.srcNot, fun q hq => by rw [hm q hq]; exact r.plain q hq, r.last, by rw [hm x r.lastIn]; exact r.ends⟩
  have bg : b ≠ g := Nat.ne_of_lt (Nat.lt_of_lt_of_le r.out.valid.2 hgg)
  have rg : Reading h1 g b ms l y := ⟨move r.out, hbg, bg, fun hh => Nat.lt_irrefl _ (Nat.lt_of_lt_of_le r.out.valid.2 (hgm b hh)),
    fun hh => Nat.lt_irrefl _ (Nat.lt_of_lt_of_le (r.out.chain.valid g hh).2 hgg), hpl, hy, by rw [hyb]; exact fun hh => Nat.lt_irrefl _ (hbg.chain.valid 0 hh).1⟩
  obtain ⟨h2, e2, l', w1, w2, w3, w4, w5⟩ := append_loop ms [] (fuel := fuel) rfl rg r1 (by rw [← hcs] at hfu; simpa using hfu)
  refine ⟨h1, g, h2, e1, ?_, l', w1, by rw [w2, hcs], Nat.le_trans hgr w3, fun q hq => (w4 q hq).trans (hm q hq), fun q v hq => by rw [w5 q (hval q v) hq, hold q v]⟩
  have hfr : (h1.cell g).front = ahead h1 y ms := by
    cases ms with
    | nil => simp at hy
    | cons a ms => exact hbg.chain.1
  rw [bodyAppend, bodyAppendWith, Res.assert_true (Nat.ne_of_gt r.out.valid.1), Res.ok_bind, Res.assert_true (Nat.ne_of_gt hbg.valid.1), Res.ok_bind,
    get_ok hbg.valid, Res.ok_bind, if_pos htg]
  rw [bodyAppendBodyWith, Res.assert_true (Nat.ne_of_gt r.out.valid.1), Res.ok_bind, Res.assert_true (Nat.ne_of_gt hbg.valid.1), Res.ok_bind,
    Res.assert_true bg, Res.ok_bind, get_ok hbg.valid, Res.ok_bind, hfr]
  exact e2

/-! ## The loops -/

theorem no_zero_start {name : Bytes} (h0 : (0 : UInt8) ∉ name) : (0 : UInt8) ∉ b!"region " ++ name := by
  simp only [List.mem_append, not_or]
  exact ⟨by decide, h0⟩

theorem no_zero_stop {name : Bytes} (h0 : (0 : UInt8) ∉ name) : (0 : UInt8) ∉ b!"endregion " ++ name := by
  simp only [List.mem_append, not_or]
  exact ⟨by decide, h0⟩

/-- The entries of the region are passed over, the pragma at its end included. -/
theorem pass_region {lt : Bool} {name : Bytes} (h0 : (0 : UInt8) ∉ name) (r : Reading h c b m l x) {cl : Nat} {m2 : List Nat} (hc : Ends name (h.cell cl)) :
    ∀ (i : List Nat) {m1 : List Nat} {fuel : Nat}, m = m1 ++ (i ++ cl :: m2) → (∀ y ∈ i, ¬ Ends name (h.cell y)) → i.length < fuel →
      passRegion lt fuel h (b!"endregion " ++ name) (ahead h x (i ++ cl :: m2)) = .ok (ahead h x m2) := by
  intro i
  induction i with
  | nil =>
    intro m1 fuel hm _ hfu
    obtain ⟨f, rfl⟩ : ∃ f, fuel = f + 1 := ⟨fuel - 1, by simp at hfu; omega⟩
    have vc : h.Valid cl := r.validOf (by rw [hm]; simp)
    obtain ⟨v, hv, hz⟩ := Str.C18_contains lt (h.cell cl).content (b!"endregion " ++ name) (no_zero_stop h0)
    rw [passRegion, List.nil_append]
    show ((h.get cl).bind _) = _
    rw [get_ok vc, Res.ok_bind, if_pos hc.1, hv, Res.ok_bind]
    show ((advance h cl).bind _) = _
    rw [r.advance (m1 := m1) (m2 := m2) (by simpa using hm), Res.ok_bind, if_pos (hz.mpr hc.2)]
  | cons e i ih =>
    intro m1 fuel hm hi hfu
    obtain ⟨f, rfl⟩ : ∃ f, fuel = f + 1 := ⟨fuel - 1, by simp at hfu; omega⟩
    have ve : h.Valid e := r.validOf (by rw [hm]; simp)
    have hadv := r.advance (m1 := m1) (m2 := i ++ cl :: m2) (e := e) (by simpa using hm)
    have key := ih (m1 := m1 ++ [e]) (fuel := f) (by simp [hm]) (fun y hy => hi y (List.mem_cons_of_mem _ hy)) (by simp at hfu; omega)
    rw [passRegion, List.cons_append]
    show ((h.get e).bind _) = _
    rw [get_ok ve, Res.ok_bind]
    by_cases ht : (h.cell e).type = .Preprocess_Pragma
    · obtain ⟨v, hv, hz⟩ := Str.C18_contains lt (h.cell e).content (b!"endregion " ++ name) (no_zero_stop h0)
      rw [if_pos ht, hv, Res.ok_bind]
      show ((advance h e).bind _) = _
      rw [hadv, Res.ok_bind, if_neg (fun hh => hi e List.mem_cons_self ⟨ht, hz.mp hh⟩)]
      exact key
    · rw [if_neg ht]
      show ((advance h e).bind _) = _
      rw [hadv, Res.ok_bind]
      exact key

/-- The region that begins at an entry. -/
theorem swap_region {lt : Bool} {name : Bytes} (h0 : (0 : UInt8) ∉ name) {gen : Heap → Res (Heap × Nat)} {cs : List Node} (hg : Makes gen cs) (r : Reading h c b m l x) {o cl e : Nat}
    {m1 i m2 : List Nat} (ho : Begins name (h.cell o)) (hi : ∀ y ∈ i, ¬ Ends name (h.cell y)) (hc : Ends name (h.cell cl)) (hm : m = m1 ++ o :: (i ++ cl :: e :: m2)) {fuel : Nat}
    (hf1 : cs.length < fuel) (hf2 : i.length < fuel) :
    ∃ h', swapRegion lt fuel h name gen o b = .ok (true, h', e) ∧ Wrote h h' c b m l x (cs ++ [(h.cell e).payload]) := by
  obtain ⟨h1, g, h2, e1, e2, w⟩ := append_made hg r hf1
  obtain ⟨v, hv, hz⟩ := Str.C18_contains lt (h.cell o).content (b!"region " ++ name) (no_zero_start h0)
  have vo : h.Valid o := r.validOf (by rw [hm]; simp)
  have hs := w.same
  have hm1 : m = (m1 ++ [o]) ++ (i ++ cl :: e :: m2) := by simp [hm]
  have key : ∀ l1, Reading h2 c b m l1 x → ∃ h', ((advance h2 o).bind fun entry => (passRegion lt fuel h2 (b!"endregion " ++ name) entry).bind fun entry =>
      (bodyAppend fuel h2 b entry).bind fun h => Res.ok (true, h, entry)) = .ok (true, h', e) ∧ bodyAppend fuel h2 b e = .ok h' ∧ Wrote h2 h' c b m l1 x [(h.cell e).payload] := by
    intro l1 r2
    have em : e ∈ m := by rw [hm]; simp
    obtain ⟨h3, e3, k3⟩ := append_copy r2.out (r2.validOf em) (fun e' => r2.outNot (e' ▸ em)) (r2.plain e em)
      (by rw [r2.src.parents e em]; exact Nat.ne_of_gt r2.src.valid.1) fuel
    refine ⟨h3, ?_, e3, ?_⟩
    · rw [r2.advance (m1 := m1) hm, Res.ok_bind,
        pass_region h0 r2 (by rw [hs cl (by rw [hm]; simp)]; exact hc) i hm1 (fun y hy => by rw [hs y (by rw [hm]; simp [hy])]; exact hi y hy) hf2, Res.ok_bind]
      show ((bodyAppend fuel h2 b e).bind _) = _
      rw [e3, Res.ok_bind]
      rfl
    · have := (k3 r2).2
      rwa [hs e em] at this
  obtain ⟨l1, r2, -⟩ := id w
  obtain ⟨h3, e3, e4, -⟩ := key _ r2
  obtain ⟨h4, e5, w4⟩ := w.andThen (F := bodyAppend fuel h2 b e) fun l1 r1 => by
    obtain ⟨h', -, a, b⟩ := key l1 r1
    exact ⟨h', a, b⟩
  have h43 : h4 = h3 := by
    rw [e4] at e5
    cases e5
    rfl
  refine ⟨h3, ?_, h43 ▸ w4⟩
  rw [swapRegion, get_ok vo, Res.ok_bind, hv, Res.ok_bind, if_pos (hz.mpr ho.2), e1, Res.ok_bind]
  show ((bodyAppend fuel h1 b g).bind _) = _
  rw [e2, Res.ok_bind]
  exact e3

theorem swap_run {lt : Bool} {name : Bytes} (h0 : (0 : UInt8) ∉ name) {gen : Heap → Res (Heap × Nat)} {cs : List Node} (hg : Makes gen cs) {f : Nat → Node} {m2 : List Nat} {k : List Node}
    (hk : Swaps f name cs m2 k) : ∀ {h : Heap} {l m1 : List Nat} {fuel : Nat}, m = m1 ++ m2 → Reading h c b m l x → (∀ q ∈ m, h.cell q = f q) → m2.length + cs.length < fuel →
      ∃ h', swapBody lt fuel name gen h c b (ahead h x m2) = .ok h' ∧ Wrote h h' c b m l x k := by
  induction hk with
  | nil =>
    intro h l m1 fuel hm r hf hfu
    obtain ⟨g, rfl⟩ : ∃ g, fuel = g + 1 := ⟨fuel - 1, by simp at hfu; omega⟩
    refine ⟨h, ?_, Wrote.refl r⟩
    rw [swapBody, r.atEnd hm, Res.ok_bind]
    rfl
  | @keep e m2 k hp hk' ih =>
    intro h l m1 fuel hm r hf hfu
    obtain ⟨g, rfl⟩ : ∃ g, fuel = g + 1 := ⟨fuel - 1, by simp at hfu; omega⟩
    have em : e ∈ m := by rw [hm]; simp
    have ve : h.Valid e := r.validOf em
    have ee : h.cell e = f e := hf e em
    obtain ⟨h1, e1, k1⟩ := append_copy r.out ve (fun e' => r.outNot (e' ▸ em)) (r.plain e em) (by rw [r.src.parents e em]; exact Nat.ne_of_gt r.src.valid.1) g
    obtain ⟨r1, w1⟩ := k1 r
    have hm' : m = (m1 ++ [e]) ++ m2 := by simp [hm]
    have hno : (if (h.cell e).type = .Preprocess_Pragma then swapRegion lt g h name gen e b else .ok (false, h, e)) = .ok (false, h, e) := by
      by_cases ht : (h.cell e).type = .Preprocess_Pragma
      · obtain ⟨v, hv, hz⟩ := Str.C18_contains lt (h.cell e).content (b!"region " ++ name) (no_zero_start h0)
        rw [if_pos ht, swapRegion, get_ok ve, Res.ok_bind, hv, Res.ok_bind, if_neg (fun hh => hp (ee ▸ ⟨ht, hz.mp hh⟩))]
      · rw [if_neg ht]
    have e0 : swapBody lt (g + 1) name gen h c b (ahead h x (e :: m2)) = swapBody lt g name gen h1 c b (ahead h1 x m2) := by
      rw [swapBody, r.atEnd hm, Res.ok_bind]
      show ((h.get e).bind fun n => (if n.type = .Preprocess_Pragma then swapRegion lt g h name gen e b else .ok (false, h, e)).bind _) = _
      rw [get_ok ve, Res.ok_bind, hno, Res.ok_bind]
      show ((bodyAppend g h b e).bind _) = _
      rw [e1, Res.ok_bind]
      show ((advance h1 e).bind _) = _
      rw [r1.advance hm, Res.ok_bind]
    rw [e0]
    rw [ee] at w1
    exact w1.andThen fun l1 r1' => ih hm' r1' (fun q hq => (w1.same q hq).trans (hf q hq)) (by simp at hfu; omega)
  | @swap o cl e i m2 k ho hi hc hk' ih =>
    intro h l m1 fuel hm r hf hfu
    obtain ⟨g, rfl⟩ : ∃ g, fuel = g + 1 := ⟨fuel - 1, by simp at hfu; omega⟩
    have om : o ∈ m := by rw [hm]; simp
    have cm : cl ∈ m := by rw [hm]; simp
    have em : e ∈ m := by rw [hm]; simp
    obtain ⟨h1, e1, w1⟩ := swap_region (lt := lt) h0 hg r (hf o om ▸ ho) (fun y hy => by rw [hf y (by rw [hm]; simp [hy])]; exact hi y hy) (hf cl cm ▸ hc) hm
      (fuel := g) (by simp at hfu; omega) (by simp at hfu; omega)
    obtain ⟨l1, r1, -⟩ := id w1
    have hm2 : m = (m1 ++ o :: (i ++ [cl])) ++ (e :: m2) := by simp [hm]
    have hm' : m = (m1 ++ o :: (i ++ [cl, e])) ++ m2 := by simp [hm]
    have e0 : swapBody lt (g + 1) name gen h c b (ahead h x (o :: (i ++ cl :: e :: m2))) = swapBody lt g name gen h1 c b (ahead h1 x m2) := by
      rw [swapBody, r.atEnd hm, Res.ok_bind]
      show ((h.get o).bind fun n => (if n.type = .Preprocess_Pragma then swapRegion lt g h name gen o b else .ok (false, h, o)).bind _) = _
      rw [get_ok (r.validOf om), Res.ok_bind, if_pos (hf o om ▸ ho.1), e1, Res.ok_bind]
      show ((advance h1 e).bind _) = _
      rw [r1.advance hm2, Res.ok_bind]
    rw [e0, show cs ++ (f e).payload :: k = (cs ++ [(f e).payload]) ++ k by simp]
    rw [hf e em] at w1
    exact w1.andThen fun l1 r1' => ih hm' r1' (fun q hq => (w1.same q hq).trans (hf q hq)) (by simp at hfu; omega)

/-- C68: going through a body and exchanging a region appends to the new body exactly what is to be there, in order: what the generator makes in the place of each region, and
everything outside the regions unchanged. The body that is read, and everything else, is as it was. -/
theorem C68_swapped {lt : Bool} {name : Bytes} (h0 : (0 : UInt8) ∉ name) {gen : Heap → Res (Heap × Nat)} {cs : List Node} (hg : Makes gen cs) {k : List Node} (hb : IsBody h b l)
    (hc : IsBody h c m) (hbc : b ≠ c) (hbm : b ∉ m) (hcl : c ∉ l) (ht : ∀ e ∈ m, isBodyType (h.cell e).type = false) (hx : m.getLast? = some x) (hend : (h.cell x).back ∉ m)
    (hk : Swaps h.cell name cs m k) {fuel : Nat} (hfu : m.length + cs.length < fuel) :
    ∃ h' l', swapBody lt fuel name gen h c b (h.cell c).front = .ok h' ∧ entries h' b = .ok (l ++ l') ∧ l'.map (fun e => (h'.cell e).payload) = k ∧
      entries h' c = .ok m ∧ (∀ e ∈ l ++ l', (h'.cell e).parent = b) ∧ (∀ q ∈ m, h'.cell q = h.cell q) ∧ ∀ q, h.Valid q → q ≠ b → (h'.cell q).payload = (h.cell q).payload := by
  have r : Reading h c b m l x := ⟨hb, hc, hbc, hbm, hcl, ht, hx, hend⟩
  obtain ⟨h', e, l', r', k1, -, k2, k3⟩ := swap_run (lt := lt) h0 hg hk (m1 := []) rfl r (fun _ _ => rfl) hfu
  have hfr : (h.cell c).front = ahead h x m := by
    cases m with
    | nil => simp at hx
    | cons a m => exact hc.chain.1
  exact ⟨h', l', by rw [hfr]; exact e, r'.out.entries_eq, k1, r'.src.entries_eq, r'.out.parents, k2, k3⟩

/-! ## Cases -/

/-- A generator: a body with one code. -/
def makeOne (h : Heap) : Res (Heap × Nat) :=
  (defBody h .Global_Body).bind fun r => match r with
  | none => .stop
  | some (g, h) => (newOf h .Untyped b!"new").bind fun r => (append r.2 g r.1).bind fun h => .ok (h, g)

theorem makeOne_makes : Makes makeOne [{ type := .Untyped, content := b!"new" }] := by
  intro h hn
  obtain ⟨g, h1, e1, hb1, ht1, hv1, hold1⟩ := C21_def_body h hn .Global_Body (by decide)
  have hg : h.next ≤ g := Nat.le_of_not_lt fun hh => hv1 ⟨hb1.valid.1, hh⟩
  have hgr : h.next ≤ h1.next := Nat.le_of_lt (Nat.lt_of_le_of_lt hg hb1.valid.2)
  let h2 : Heap := { next := h1.next + 1, cell := fun q => if q = h1.next then { type := .Untyped, content := b!"new" } else h1.cell q }
  have hn1 := hb1.next
  have e2 : newOf h1 .Untyped b!"new" = .ok (h1.next, h2) := by
    unfold newOf
    simp only [Heap.make]
    rw [upd_ok (by exact ⟨hn1, Nat.lt_succ_self _⟩), Res.ok_bind]
    congr 2
    show Heap.mk _ _ = Heap.mk _ _
    congr 1
    funext q
    by_cases hq : q = h1.next <;> simp [hq]
  have hne : ∀ q, h1.Valid q → h2.cell q = h1.cell q := fun q w => if_neg (Nat.ne_of_lt w.2)
  have hgc := hne g hb1.valid
  have hb2 : IsBody h2 g [] :=
    { next := Nat.succ_pos _, valid := ⟨hb1.valid.1, Nat.lt_succ_of_lt hb1.valid.2⟩, count := by rw [hgc]; exact hb1.count
      chain := trivial, first := by rw [hgc]; exact hb1.first, last := (fun _ hh => by cases hh), parents := (fun _ hh => by cases hh), self := List.not_mem_nil, nodup := List.nodup_nil }
  have hcell : h2.cell h1.next = { type := .Untyped, content := b!"new" } := if_pos rfl
  obtain ⟨h3, o, e3, hb3, ha⟩ := append_spec hb2 (other := h1.next) ⟨hn1, Nat.lt_succ_self _⟩ (Ne.symm (Nat.ne_of_lt hb1.valid.2))
  have ho : o = h1.next := by rw [ha.fresh, hcell]; rfl
  subst ho
  have htype : (h3.cell h1.next).type = .Untyped := by rw [payload_type ha.node, hcell]
  refine ⟨h3, g, [h1.next], h1.next, ?_, hb3, ?_, rfl, by rw [ha.oback, hcell], ?_, ?_, hg, ?_, Nat.le_trans (Nat.le_trans hgr (Nat.le_succ _)) ha.grow, ?_⟩
  · rw [makeOne, e1, Res.ok_bind]
    show ((newOf h1 .Untyped b!"new").bind _) = _
    rw [e2, Res.ok_bind]
    show ((append h2 g h1.next).bind _) = _
    rw [e3, Res.ok_bind]
  · have h5 : (h3.cell g).type = (h2.cell g).type := by
      have h6 := congrArg Node.type ha.bodyPayload.1
      exact h6
    rw [h5, hgc, ht1]
    rfl
  · intro e he
    rw [List.mem_singleton.mp he, htype]
    rfl
  · rw [List.map_singleton, ha.node, hcell]
    rfl
  · intro e he
    rw [List.mem_singleton.mp he]
    exact hgr
  · intro q v
    have v1 := (hold1 q v).1
    have v2 : h2.Valid q := ⟨v1.1, Nat.lt_succ_of_lt v1.2⟩
    rw [ha.frame q v2 (Nat.ne_of_lt (Nat.lt_of_lt_of_le v.2 hg)) (Nat.ne_of_lt v1.2), if_neg (by simp), hne q v1, (hold1 q v).2]

/-- A body, 1, with entries of the given types and texts, and an empty body behind them. -/
def laid (ns : List (CodeType × Bytes)) : Heap where
  next := ns.length + 3
  cell q :=
    if q = 1 then { type := .Global_Body, front := 2, back := ns.length + 1, num := ns.length }
    else if q = ns.length + 2 then { type := .Global_Body }
    else match ns[q - 2]? with
      | some (t, s) => { type := t, content := s, parent := 1, front := if q = 2 then 0 else q - 1, back := if q = ns.length + 1 then 0 else q + 1 }
      | none => {}

/-- The region `R` of a body is exchanged: what the new one says. -/
def swapped (ns : List (CodeType × Bytes)) : Res (List (CodeType × Bytes)) :=
  (swapBody false 20 b!"R" makeOne (laid ns) 1 (ns.length + 2) 2).bind fun h => said h (ns.length + 2)

abbrev prag (c : Bytes) : CodeType × Bytes := (.Preprocess_Pragma, c)

def demoRegion : List (CodeType × Bytes) := [u b!"a", prag b!"region R", u b!"b", prag b!"once", u b!"endregion R", prag b!"endregion R", u b!"c", prag b!"region S", u b!"d"]

example : swapped demoRegion = .ok [u b!"a", u b!"new", u b!"c", prag b!"region S", u b!"d"] := by decide +kernel

/-- The hypotheses of `C68_swapped` are met by it. -/
example : IsBody (laid demoRegion) 11 [] ∧ IsBody (laid demoRegion) 1 [2, 3, 4, 5, 6, 7, 8, 9, 10] ∧ ((laid demoRegion).cell 10).back = 0 ∧
    Swaps (laid demoRegion).cell b!"R" [{ type := .Untyped, content := b!"new" }] [2, 3, 4, 5, 6, 7, 8, 9, 10]
      [{ type := .Untyped, content := b!"a" }, { type := .Untyped, content := b!"new" }, { type := .Untyped, content := b!"c" },
        { type := .Preprocess_Pragma, content := b!"region S" }, { type := .Untyped, content := b!"d" }] := by
  refine ⟨⟨by decide, by decide, by decide, trivial, by decide, (fun _ hx => by cases hx), (fun _ hx => by cases hx), List.not_mem_nil, List.nodup_nil⟩,
    ⟨by decide, by decide, by decide, ?_, (fun hx => by cases hx), ?_, by decide, by decide, by decide⟩, by decide, ?_⟩
  · repeat refine ⟨by decide, by decide, ?_⟩
    trivial
  · intro x hx
    have hx : some 10 = some x := hx
    cases hx
    decide
  · refine .keep (by unfold Begins; decide) (.swap (o := 3) (c := 7) (e := 8) (i := [4, 5, 6]) (l := [9, 10]) (by unfold Begins; decide) (by unfold Ends; decide) (by unfold Ends; decide) ?_)
    exact .keep (by unfold Begins; decide) (.keep (by unfold Begins; decide) .nil)

/-! ## What is false -/

/-- C68 is false of a region right behind another one: its pragma counts as the entry behind the first, so it is not exchanged; and its end, whose text contains that of a
beginning, counts as one: the search for an end runs off the end of the body, and a null pointer is read. -/
theorem C68_adjacent_refuted : swapped [prag b!"region R", prag b!"endregion R", prag b!"region R", u b!"a", prag b!"endregion R", u b!"b"] = .ub := by decide +kernel

/-- C68 is false of a region at the end of the body: there is no entry behind it, and appending that trips an assertion. -/
theorem C68_at_end_refuted : swapped [u b!"a", prag b!"region R", u b!"b", prag b!"endregion R"] = .stop := by decide +kernel

/-- C68 is false of a region that is never closed: the search runs off the end of the body, and a null pointer is read. -/
theorem C68_unclosed_refuted : swapped [u b!"a", prag b!"region R", u b!"b"] = .ub := by decide +kernel

/-- C68 is false of a name that another one begins with: that region is exchanged too. -/
theorem C68_prefix_refuted : swapped [prag b!"region Rest", u b!"a", prag b!"endregion Rest", u b!"b"] = .ok [u b!"new", u b!"b"] := by decide +kernel

end Verif.Ast
