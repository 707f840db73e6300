import Verif.Proof.ParseSafe
/-!
# What the operations on nodes keep
-/
namespace Verif.Parse
open Verif.Lex (Tok)
open Verif.Ast

variable {c : Ctx} {α β σ : Type}

/-- The operation keeps what has to be kept, and ends. -/
def Ctx.Keeps (c : Ctx) (g : Heap) (V : Heap → Prop) : Res Heap → Prop
  | .ok h' => c.HeapOk h' ∧ Grow g h' ∧ V h'
  | .hang => c.hangs
  | _ => True

/-- The like for an operation with a result. -/
def Ctx.Makes (c : Ctx) (g : Heap) (V : α → Heap → Prop) : Res (α × Heap) → Prop
  | .ok (a, h') => c.HeapOk h' ∧ Grow g h' ∧ V a h'
  | .hang => c.hangs
  | _ => True

def Yes : Heap → Prop := fun _ => True

theorem Ctx.Keeps.bind {g h : Heap} {x : Res Heap} {f : Heap → Res Heap} {V W : Heap → Prop} (hg : Grow g h) (hx : c.Keeps h V x)
    (hf : ∀ h', c.HeapOk h' → Grow h h' → V h' → c.Keeps g W (f h')) : c.Keeps g W (x.bind f) := by
  cases x with
  | ok h' => exact hf h' hx.1 hx.2.1 hx.2.2
  | hang => exact hx
  | _ => trivial

theorem Ctx.Keeps.makes {g h : Heap} {x : Res Heap} {f : Heap → Res (α × Heap)} {V : Heap → Prop} {W : α → Heap → Prop} (hg : Grow g h)
    (hx : c.Keeps h V x) (hf : ∀ h', c.HeapOk h' → Grow h h' → V h' → c.Makes g W (f h')) : c.Makes g W (x.bind f) := by
  cases x with
  | ok h' => exact hf h' hx.1 hx.2.1 hx.2.2
  | hang => exact hx
  | _ => trivial

theorem Ctx.Makes.bind {g h : Heap} {x : Res (α × Heap)} {f : α × Heap → Res (β × Heap)} {V : α → Heap → Prop} {W : β → Heap → Prop}
    (hg : Grow g h) (hx : c.Makes h V x) (hf : ∀ a h', c.HeapOk h' → Grow h h' → V a h' → c.Makes g W (f (a, h'))) :
    c.Makes g W (x.bind f) := by
  cases x with
  | ok r => exact hf r.1 r.2 hx.1 hx.2.1 hx.2.2
  | hang => exact hx
  | _ => trivial

theorem Ctx.Makes.keeps {g h : Heap} {x : Res (α × Heap)} {f : α × Heap → Res Heap} {V : α → Heap → Prop} {W : Heap → Prop}
    (hg : Grow g h) (hx : c.Makes h V x) (hf : ∀ a h', c.HeapOk h' → Grow h h' → V a h' → c.Keeps g W (f (a, h'))) :
    c.Keeps g W (x.bind f) := by
  cases x with
  | ok r => exact hf r.1 r.2 hx.1 hx.2.1 hx.2.2
  | hang => exact hx
  | _ => trivial

theorem Ctx.Keeps.get {g h : Heap} {p : Nat} {f : Node → Res Heap} {W : Heap → Prop} (hf : 0 < p → p < h.next → c.Keeps g W (f (h.cell p))) :
    c.Keeps g W ((h.get p).bind f) := by
  unfold Heap.get
  split
  · rename_i hv; exact hf hv.1 hv.2
  · trivial

theorem Ctx.Makes.get {g h : Heap} {p : Nat} {f : Node → Res (α × Heap)} {W : α → Heap → Prop}
    (hf : 0 < p → p < h.next → c.Makes g W (f (h.cell p))) : c.Makes g W ((h.get p).bind f) := by
  unfold Heap.get
  split
  · rename_i hv; exact hf hv.1 hv.2
  · trivial

theorem Ctx.Keeps.assert {g : Heap} {b : Prop} [Decidable b] {f : Unit → Res Heap} {W : Heap → Prop} (hf : b → c.Keeps g W (f ())) :
    c.Keeps g W ((Res.assert b).bind f) := by
  unfold Res.assert
  split
  · exact hf ‹_›
  · trivial

theorem NT.grow {h h' : Heap} {p : Nat} (a : NT h p) (g : Grow h h') : NT h' p := by
  rcases a with a | a
  · exact .inl a
  · exact .inr ⟨Nat.lt_of_lt_of_le a.1 g.next, (g.type p a.1) ▸ a.2⟩

theorem Ctx.Links.grow {h h' : Heap} {n : Node} (l : c.Links h n) (g : Grow h h') : c.Links h' n :=
  ⟨l.slots, l.front, l.back, fun t => ⟨(l.nt t).1.grow g, (l.nt t).2.grow g⟩⟩

/-- The heap after a node has been overwritten. -/
def put (h : Heap) (p : Nat) (n : Node) : Heap := { h with cell := fun q => if q = p then n else h.cell q }

theorem put_grow {h : Heap} {p : Nat} {n : Node} (ht : n.type = (h.cell p).type)
    (hb : (h.cell p).type = .Typename → n.back = (h.cell p).back) : Grow h (put h p n) where
  next := Nat.le_refl _
  type q _ := by show (if q = p then n else h.cell q).type = _; split <;> simp_all
  back q _ hq := by
    show (if q = p then n else h.cell q).back = _
    split
    · rename_i e; subst e; exact hb hq
    · rfl

/-- A node of this parse is overwritten. -/
theorem put_ok {h : Heap} {p : Nat} {n : Node} (ho : c.HeapOk h) (hp : c.N ≤ p) (hn : c.Links h n) (ht : n.type = (h.cell p).type)
    (hb : (h.cell p).type = .Typename → n.back = (h.cell p).back) : c.HeapOk (put h p n) ∧ Grow h (put h p n) := by
  have hg := put_grow ht hb
  refine ⟨⟨ho.next, ?_, ?_, ?_⟩, hg⟩
  · intro q hq hq'
    show (if q = p then n else h.cell q) = _
    rw [if_neg (by omega)]
    exact ho.old q hq hq'
  · obtain ⟨q, h1⟩ := ho.empty
    refine ⟨q, ?_⟩
    show (if c.e.tEmpty = p then n else h.cell c.e.tEmpty) = _
    rw [if_neg (by have := c.tE; omega)]
    exact h1
  · intro q hq hq'
    have : c.Links h ((put h p n).cell q) := by
      show c.Links h (if q = p then n else h.cell q)
      split
      · exact hn
      · exact ho.links q hq hq'
    exact this.grow hg

theorem upd_keeps {h : Heap} {p : Nat} {f : Node → Node} (ho : c.HeapOk h) (hp : c.Fr p)
    (hn : c.N ≤ p → p < h.next → c.Links h (h.cell p) → c.Links h (f (h.cell p)))
    (ht : (f (h.cell p)).type = (h.cell p).type)
    (hb : c.N ≤ p → (h.cell p).type = .Typename → (f (h.cell p)).back = (h.cell p).back) :
    c.Keeps h (fun h' => h' = put h p (f (h.cell p))) (h.upd p f) := by
  unfold Heap.upd
  split
  · rename_i hv
    rcases hp with rfl | hp
    · have := hv.1; omega
    · have := put_ok ho hp (hn hp hv.2 (ho.links p hp hv.2)) ht (hb hp)
      exact ⟨this.1, this.2, rfl⟩
  · trivial

/-- The heap with a new node. -/
def made (h : Heap) (n : Node) : Heap := { next := h.next + 1, cell := fun q => if q = h.next then n else h.cell q }

theorem made_grow {h : Heap} {n : Node} : Grow h (made h n) where
  next := Nat.le_succ _
  type q hq := by show (if q = h.next then n else h.cell q).type = _; rw [if_neg (by omega)]
  back q hq _ := by show (if q = h.next then n else h.cell q).back = _; rw [if_neg (by omega)]

theorem made_ok {h : Heap} {n : Node} (ho : c.HeapOk h) (hn : c.Links h n) : c.HeapOk (made h n) ∧ Grow h (made h n) := by
  refine ⟨⟨Nat.le_trans ho.next (Nat.le_succ _), ?_, ?_, ?_⟩, made_grow⟩
  · intro q hq hq'
    show (if q = h.next then n else h.cell q) = _
    rw [if_neg (by have := ho.next; omega)]
    exact ho.old q hq hq'
  · obtain ⟨q, h1⟩ := ho.empty
    refine ⟨q, ?_⟩
    show (if c.e.tEmpty = h.next then n else h.cell c.e.tEmpty) = _
    rw [if_neg (by have := c.tE; have := ho.next; omega)]
    exact h1
  · intro q hq hq'
    have hq' : q < h.next + 1 := hq'
    have : c.Links h ((made h n).cell q) := by
      show c.Links h (if q = h.next then n else h.cell q)
      split
      · exact hn
      · exact ho.links q hq (by omega)
    exact this.grow made_grow

theorem finish_made (h : Heap) (n : Node) (hp : 0 < h.next) : finish h.make.2 h.next n = .ok (h.next, made h n) := by
  show ((h.make.2).upd h.next fun _ => n).bind _ = _
  have : h.make.2.Valid h.next := ⟨hp, Nat.lt_succ_self _⟩
  unfold Heap.upd
  rw [if_pos this]
  show Res.ok (h.next, ({ next := h.next + 1, cell := _ } : Heap)) = _
  congr
  funext q
  by_cases hq : q = h.next <;> simp [hq, Heap.make]

/-- The node that was made. -/
def Ctx.New (c : Ctx) (n : Node) (p : Nat) (h : Heap) : Prop := c.N ≤ p ∧ p < h.next ∧ h.cell p = n

/-- Links to begin with. -/
theorem Ctx.links_new {h : Heap} {n : Node} (hs : ∀ q ∈ slots n, c.Ref q) (hf : n.front = 0) (hb : n.back = 0) : c.Links h n :=
  ⟨hs, .inl hf, .inl hb, fun _ => ⟨.inl hf, .inl hb⟩⟩

theorem finish_makes {h : Heap} {n : Node} (ho : c.HeapOk h) (hs : ∀ q ∈ slots n, c.Ref q) (hf : n.front = 0 := by rfl)
    (hb : n.back = 0 := by rfl) : c.Makes h (fun p h' => h' = made h n ∧ p = h.next) (finish h.make.2 h.next n) := by
  rw [finish_made h n (Nat.lt_of_lt_of_le c.pos ho.next)]
  have := made_ok ho (c.links_new (n := n) hs hf hb)
  exact ⟨this.1, this.2, rfl, rfl⟩

theorem Ctx.Keeps.imp {g : Heap} {x : Res Heap} {V W : Heap → Prop} (hx : c.Keeps g V x) (hv : ∀ h', V h' → W h') : c.Keeps g W x := by
  cases x with
  | ok h' => exact ⟨hx.1, hx.2.1, hv _ hx.2.2⟩
  | hang => exact hx
  | _ => trivial

theorem Ctx.Keeps.yes {g : Heap} {x : Res Heap} {V : Heap → Prop} (hx : c.Keeps g V x) : c.Keeps g Yes x := hx.imp fun _ _ => trivial

theorem Ctx.Makes.imp {g : Heap} {x : Res (α × Heap)} {V W : α → Heap → Prop} (hx : c.Makes g V x) (hv : ∀ a h', Grow g h' → V a h' → W a h') :
    c.Makes g W x := by
  cases x with
  | ok r => exact ⟨hx.1, hx.2.1, hv _ _ hx.2.1 hx.2.2⟩
  | hang => exact hx
  | _ => trivial

theorem Ctx.Makes.grow {g h : Heap} {x : Res (α × Heap)} {V : α → Heap → Prop} (hx : c.Makes h V x) (hg : Grow g h) : c.Makes g V x := by
  cases x with
  | ok r => exact ⟨hx.1, hg.trans hx.2.1, hx.2.2⟩
  | hang => exact hx
  | _ => trivial

theorem Ctx.Keeps.grow {g h : Heap} {x : Res Heap} {V : Heap → Prop} (hx : c.Keeps h V x) (hg : Grow g h) : c.Keeps g V x := by
  cases x with
  | ok r => exact ⟨hx.1, hg.trans hx.2.1, hx.2.2⟩
  | hang => exact hx
  | _ => trivial

theorem finish_is {h : Heap} {n : Node} (ho : c.HeapOk h) (hs : ∀ q ∈ slots n, c.Ref q) (hf : n.front = 0 := by rfl)
    (hb : n.back = 0 := by rfl) : c.Makes h (c.New n) (finish h.make.2 h.next n) := by
  refine (finish_makes ho hs hf hb).imp ?_
  rintro a h' - ⟨rfl, rfl⟩
  exact ⟨ho.next, Nat.lt_succ_self _, by show (if h.next = h.next then n else _) = n; rw [if_pos rfl]⟩

/-! ## The parsing functions that change nodes -/

namespace Safe
variable {k : Nat} {g h : Heap}

theorem code {f : Cfg → Heap → Out} {V : Nat → Heap → Prop} (hf : ∀ h', c.HeapOk h' → Grow h h' → c.Makes h' V (f c.e.cfg h')) :
    Safe c k g h (P.code f) V Never := by
  intro hg s ho hk hh
  have := hf s.heap ho.heap hh
  show c.After g s V Never ((f c.e.cfg s.heap).bind fun r => .ok (r.1, { s with heap := r.2 }))
  revert this
  cases f c.e.cfg s.heap with
  | ok r => rintro ⟨h1, h2, h3⟩; exact ⟨⟨h1, ho.idx⟩, h3, rfl, Nat.le_refl _, False.elim, (hg.trans hh).trans h2⟩
  | _ => exact id

theorem change {f : Heap → Res Heap} {V : Heap → Prop} (hf : ∀ h', c.HeapOk h' → Grow h h' → c.Keeps h' V (f h')) :
    Safe c k g h (P.change f) (fun _ h => V h) Never := by
  intro hg s ho hk hh
  have := hf s.heap ho.heap hh
  show c.After g s _ Never ((f s.heap).bind fun r => .ok ((), { s with heap := r }))
  revert this
  cases f s.heap with
  | ok r => rintro ⟨h1, h2, h3⟩; exact ⟨⟨h1, ho.idx⟩, h3, rfl, Nat.le_refl _, False.elim, (hg.trans hh).trans h2⟩
  | _ => exact id

theorem make {n : Node} (hs : ∀ q ∈ slots n, c.Ref q) (hf : n.front = 0 := by rfl) (hb : n.back = 0 := by rfl) :
    Safe c k g h (P.make n) (c.New n) Never := code fun _ ho _ => finish_is ho hs hf hb

theorem makeIs {n : Node} (ts : List CodeType) (hs : ∀ q ∈ slots n, c.Ref q) (ht : n.type ∈ ts) (hf : n.front = 0 := by rfl)
    (hb : n.back = 0 := by rfl) : Safe c k g h (P.make n) (c.Is ts) Never := by
  refine (make hs hf hb).imp ?_ (fun _ h => h)
  rintro a h' ⟨h1, h2, h3⟩
  exact ⟨h1, h2, h3 ▸ ht⟩

theorem upd {p : Nat} {f : Node → Node} (hp : c.Fr p) (hs : ∀ n, (∀ q ∈ slots n, c.Ref q) → ∀ q ∈ slots (f n), c.Ref q)
    (ht : ∀ n, (f n).type = n.type := by intro _; rfl) (hf : ∀ n, (f n).front = n.front := by intro _; rfl)
    (hb : ∀ n, (f n).back = n.back := by intro _; rfl) : Safe c k g h (P.change fun h => h.upd p f) Top Never := by
  refine change (V := fun _ => True) fun h' ho _ => (upd_keeps ho hp ?_ (ht _) (fun _ _ => hb _)).imp fun _ _ => trivial
  intro _ _ l
  exact ⟨hs _ l.slots, by rw [hf]; exact l.front, by rw [hb]; exact l.back, fun t => by rw [hf, hb]; exact l.nt (by rw [← ht]; exact t)⟩

end Safe

/-! ## Lists -/

/-- A code that may be put into a list: made in this parse and not a type, or a constant. -/
def Ctx.Item (c : Ctx) (p : Nat) (h : Heap) : Prop :=
  (c.N ≤ p ∧ p < h.next ∧ (h.cell p).type ≠ .Typename) ∨ p ∈ c.e.constants

/-- An item that is not a body. -/
def Ctx.Mem (c : Ctx) (p : Nat) (h : Heap) : Prop :=
  (c.N ≤ p ∧ p < h.next ∧ (h.cell p).type ≠ .Typename ∧ isBodyType (h.cell p).type = false) ∨ p ∈ c.e.constants

theorem Ctx.Mem.item {p : Nat} {h : Heap} (m : c.Mem p h) : c.Item p h := m.imp (fun h => ⟨h.1, h.2.1, h.2.2.1⟩) id

theorem Ctx.HeapOk.const {h : Heap} {p : Nat} (ho : c.HeapOk h) (hp : p ∈ c.e.constants) : h.cell p = c.base p :=
  ho.old p (c.consts p hp).2.1 (c.consts p hp).1

theorem duplicate_makes {h : Heap} {p : Nat} (ho : c.HeapOk h) (hp : c.Item p h) :
    c.Makes h (fun q h' => c.N ≤ q ∧ q < h'.next ∧ (h'.cell q).type ≠ .Typename) (duplicate h p) := by
  have hlt : p < h.next := by
    rcases hp with hp | hp
    · exact hp.2.1
    · have := (c.consts p hp).2.1
      have := ho.next
      omega
  have hl : c.Links h { h.cell p with parent := 0 } ∧ (h.cell p).type ≠ .Typename := by
    rcases hp with hp | hp
    · have l := ho.links p hp.1 hp.2.1
      refine ⟨⟨?_, l.front, l.back, l.nt⟩, hp.2.2⟩
      intro q hq
      have := l.slots
      simp only [slots, List.mem_cons, List.not_mem_nil, or_false] at this hq
      rcases hq with rfl | rfl | rfl | rfl | rfl | rfl | rfl | rfl <;> first | exact c.ref_zero | exact this _ (by simp)
    · obtain ⟨-, -, -, h4, h5, -, h7, h8⟩ := c.consts p hp
      rw [ho.const hp]
      refine ⟨c.links_new ?_ h4 h5, h7⟩
      intro q hq
      have hr : ∀ q ∈ (slots (c.base p)).dropLast, c.Ref q := by
        intro q hq
        rcases h8 q hq with rfl | h
        · exact c.ref_zero
        · exact .inr (.inr h)
      have : slots { c.base p with parent := 0 } = (slots (c.base p)).dropLast ++ [0] := rfl
      rw [this] at hq
      rcases List.mem_append.mp hq with h | h
      · exact hr q h
      · rw [List.mem_singleton.mp h]
        exact c.ref_zero
  have hm := made_ok ho hl.1
  have hf := finish_made h { h.cell p with parent := 0 } (Nat.lt_of_lt_of_le c.pos ho.next)
  unfold finish at hf
  show c.Makes h _ ((h.make.2.get p).bind _)
  unfold Heap.get
  split
  · have : h.make.2.cell p = h.cell p := by show (if p = h.next then _ else h.cell p) = _; rw [if_neg (by omega)]
    rw [Res.ok_bind, this]
    show c.Makes h _ ((h.make.2.upd h.next fun _ => { h.cell p with parent := 0 }).bind _)
    rw [hf]
    refine ⟨hm.1, hm.2, ho.next, Nat.lt_succ_self _, ?_⟩
    show (if h.next = h.next then _ else _ : Node).type ≠ _
    rw [if_pos rfl]
    exact hl.2
  · trivial

theorem put_cell {h : Heap} {p q : Nat} {n : Node} : (put h p n).cell q = if q = p then n else h.cell q := rfl

theorem append_keeps {h : Heap} {self other : Nat} (ho : c.HeapOk h) (hs : c.N ≤ self) (hsn : self < h.next)
    (ht : (h.cell self).type ≠ .Typename) (hp : c.Item other h) : c.Keeps h Yes (append h self other) := by
  unfold append
  refine .assert fun _ => .assert fun _ => .assert fun hne => .get fun hp0 _ => ?_
  refine Ctx.Makes.keeps (h := h) (Grow.refl _) (V := fun q h' => c.N ≤ q ∧ q < h'.next ∧ (h'.cell q).type ≠ .Typename) ?_ ?_
  · split
    · exact duplicate_makes ho hp
    · rename_i hpar
      rcases hp with hp | hp
      · exact ⟨ho, Grow.refl _, hp⟩
      · exact ((c.consts _ hp).2.2.1 (by rw [← ho.const hp]; simpa using hpar)).elim
  · intro q h1 ho1 hg1 hq
    dsimp only
    have ht1 : (h1.cell self).type ≠ .Typename := by rw [hg1.type _ hsn]; exact ht
    have href : ∀ n, (∀ q ∈ slots n, c.Ref q) → ∀ r, c.Ref r → ∀ q ∈ slots { n with parent := r }, c.Ref q := by
      intro n hn r hr q hq
      simp only [slots, List.mem_cons, List.not_mem_nil, or_false] at hn hq
      rcases hq with rfl | rfl | rfl | rfl | rfl | rfl | rfl | rfl <;> first | exact hr | exact hn _ (by simp)
    refine Ctx.Keeps.bind hg1 (upd_keeps ho1 (.inr hq.1) ?_ rfl (fun _ _ => rfl)) ?_
    · intro _ _ l
      exact ⟨href _ l.slots _ (.inl (.inr hs)), l.front, l.back, l.nt⟩
    · rintro h2 ho2 hg2 -
      have hg12 := hg1.trans hg2
      have ht2 : (h2.cell self).type ≠ .Typename := by rw [hg12.type _ hsn]; exact ht
      have hq2 : NT h2 q := .inr ⟨Nat.lt_of_lt_of_le hq.2.1 hg2.next, by rw [hg2.type _ hq.2.1]; exact hq.2.2⟩
      have hqf : c.Fr q := .inr hq.1
      refine .get fun _ hs2 => ?_
      have ls := ho2.links self hs hs2
      split
      · refine ((upd_keeps ho2 (.inr hs) ?_ rfl (fun _ h => (ht2 h).elim)).yes).grow hg12
        intro _ _ l
        exact ⟨l.slots, hqf, hqf, fun _ => ⟨hq2, hq2⟩⟩
      · have lb := (ls.nt ht2).2
        refine Ctx.Keeps.bind hg12 (upd_keeps ho2 ls.back ?_ rfl ?_) ?_
        · intro hb1 hb2 l
          exact ⟨l.slots, l.front, hqf, fun h => ⟨(l.nt h).1, hq2⟩⟩
        · intro hb2 h
          rcases lb with lb | lb
          · have := c.pos; omega
          · exact (lb.2 h).elim
        · rintro h3 ho3 hg3 -
          refine Ctx.Keeps.bind (hg12.trans hg3) (upd_keeps ho3 hqf ?_ rfl (fun _ _ => rfl)) ?_
          · intro _ _ l
            exact ⟨l.slots, ls.back, l.back, fun h => ⟨lb.grow hg3, (l.nt h).2⟩⟩
          · rintro h4 ho4 hg4 -
            have hg24 := hg3.trans hg4
            refine ((upd_keeps ho4 (.inr hs) ?_ rfl ?_).yes).grow (hg12.trans hg24)
            · intro _ _ l
              exact ⟨l.slots, l.front, hqf, fun h => ⟨(l.nt h).1, hq2.grow hg24⟩⟩
            · intro _ h
              exact (ht2 (by rw [← hg24.type _ hs2]; exact h)).elim

theorem bodyAppend_keeps {h : Heap} {self other fuel : Nat} (ho : c.HeapOk h) (hs : c.N ≤ self) (hsn : self < h.next)
    (ht : (h.cell self).type ≠ .Typename) (hp : c.Mem other h) : c.Keeps h Yes (bodyAppend fuel h self other) := by
  unfold bodyAppend bodyAppendWith
  refine .assert fun _ => .assert fun _ => .get fun _ _ => ?_
  have : isBodyType (h.cell other).type = false := by
    rcases hp with hp | hp
    · exact hp.2.2.2
    · rw [ho.const hp]
      exact (c.consts _ hp).2.2.2.2.2.1
  rw [if_neg (by simp [this])]
  exact append_keeps ho hs hsn ht hp.item

theorem ref_parent {n : Node} (hn : ∀ q ∈ slots n, c.Ref q) {r : Nat} (hr : c.Ref r) : ∀ q ∈ slots { n with parent := r }, c.Ref q := by
  intro q hq
  simp only [slots, List.mem_cons, List.not_mem_nil, or_false] at hn hq
  rcases hq with rfl | rfl | rfl | rfl | rfl | rfl | rfl | rfl <;> first | exact hr | exact hn _ (by simp)

theorem paramsAppend_keeps {h : Heap} {self other : Nat} (ho : c.HeapOk h) (hs : c.N ≤ self) (hsn : self < h.next)
    (ht : (h.cell self).type ≠ .Typename) (hp : c.Item other h) : c.Keeps h Yes (paramsAppend h self other) := by
  unfold paramsAppend
  refine .assert fun _ => .assert fun _ => .assert fun hne => .get fun hp0 _ => ?_
  refine Ctx.Makes.keeps (h := h) (Grow.refl _) (V := fun q h' => c.N ≤ q ∧ q < h'.next ∧ (h'.cell q).type ≠ .Typename) ?_ ?_
  · split
    · exact duplicate_makes ho hp
    · rename_i hpar
      rcases hp with hp | hp
      · exact ⟨ho, Grow.refl _, hp⟩
      · exact ((c.consts _ hp).2.2.1 (by rw [← ho.const hp]; simpa using hpar)).elim
  · intro q h1 ho1 hg1 hq
    dsimp only
    have ht1 : (h1.cell self).type ≠ .Typename := by rw [hg1.type _ hsn]; exact ht
    refine Ctx.Keeps.bind hg1 (upd_keeps ho1 (.inr hq.1) ?_ rfl (fun _ _ => rfl)) ?_
    · intro _ _ l
      exact ⟨ref_parent l.slots (.inl (.inr hs)), l.front, l.back, l.nt⟩
    · rintro h2 ho2 hg2 -
      have hg12 := hg1.trans hg2
      have ht2 : (h2.cell self).type ≠ .Typename := by rw [hg12.type _ hsn]; exact ht
      have hq2 : NT h2 q := .inr ⟨Nat.lt_of_lt_of_le hq.2.1 hg2.next, by rw [hg2.type _ hq.2.1]; exact hq.2.2⟩
      have hqf : c.Fr q := .inr hq.1
      refine .get fun _ hs2 => ?_
      have ls := ho2.links self hs hs2
      split
      · refine ((upd_keeps ho2 (.inr hs) ?_ rfl (fun _ h => (ht2 h).elim)).yes).grow hg12
        intro _ _ l
        exact ⟨l.slots, hqf, hqf, fun _ => ⟨hq2, hq2⟩⟩
      · have lb := (ls.nt ht2).1
        refine Ctx.Keeps.bind hg12 (upd_keeps ho2 ls.front ?_ rfl ?_) ?_
        · intro hb1 hb2 l
          exact ⟨l.slots, l.front, hqf, fun h => ⟨(l.nt h).1, hq2⟩⟩
        · intro hb2 h
          rcases lb with lb | lb
          · have := c.pos; omega
          · exact (lb.2 h).elim
        · rintro h3 ho3 hg3 -
          refine ((upd_keeps ho3 (.inr hs) ?_ rfl ?_).yes).grow (hg12.trans hg3)
          · intro _ _ l
            exact ⟨l.slots, hqf, l.back, fun h => ⟨hq2.grow hg3, (l.nt h).2⟩⟩
          · intro _ h
            rfl

theorem specifiersAppend_makes {h : Heap} {self : Nat} {spec : Specifier} (ho : c.HeapOk h) (hs : c.Fr self) :
    c.Makes h Top (specifiersAppend c.e.cfg.fatal h self spec) := by
  unfold specifiersAppend
  rw [c.fatal]
  split
  · trivial
  · refine .get fun _ _ => ?_
    split
    · trivial
    · split
      · trivial
      · refine Ctx.Keeps.makes (Grow.refl _) (upd_keeps ho hs ?_ rfl (fun _ _ => rfl)) ?_
        · intro _ _ l
          exact ⟨l.slots, l.front, l.back, l.nt⟩
        · rintro h' ho' hg' -
          exact ⟨ho', hg', trivial⟩

theorem reject_makes {h : Heap} {V : Nat → Heap → Prop} : c.Makes h V (reject c.e.cfg h) := by
  unfold reject
  rw [c.fatal]
  trivial

theorem guardName_makes {g h : Heap} {V : Nat → Heap → Prop} {b : Bytes} {k : Out} (hk : c.Makes g V k) : c.Makes g V (guardName c.e.cfg h b k) := by
  unfold guardName
  split
  · unfold reject; rw [c.fatal]; trivial
  · exact hk

theorem guardOpt_makes {g h : Heap} {V : Nat → Heap → Prop} {p : Nat} {ts : List CodeType} {k : Out} (hk : c.Makes g V k) :
    c.Makes g V (guardOpt c.e.cfg h p ts k) := by
  unfold guardOpt
  split
  · exact hk
  · refine .get fun _ _ => ?_
    split
    · exact hk
    · unfold reject; rw [c.fatal]; trivial

/-- No slots. -/
theorem no_slots {n : Node} (h : slots n = [0, 0, 0, 0, 0, 0, 0, 0]) : ∀ q ∈ slots n, c.Ref q := by
  intro q hq
  rw [h] at hq
  simp only [List.mem_cons, List.not_mem_nil, or_self, or_false] at hq
  exact hq ▸ c.ref_zero

theorem Ctx.New.is {n : Node} {p : Nat} {h : Heap} {ts : List CodeType} (i : c.New n p h) (ht : n.type ∈ ts) : c.Is ts p h :=
  ⟨i.1, i.2.1, i.2.2 ▸ ht⟩

theorem untypedStr_makes {h : Heap} {b : Bytes} (ho : c.HeapOk h) : c.Makes h (c.Is [.Untyped]) (untypedStr c.e.cfg h b) :=
  guardName_makes ((finish_is ho (no_slots rfl)).imp fun _ _ _ i => i.is (by simp))

theorem defExecution_makes {h : Heap} {b : Bytes} (ho : c.HeapOk h) : c.Makes h (c.Is [.Execution]) (defExecution c.e.cfg h b) :=
  guardName_makes ((finish_is ho (no_slots rfl)).imp fun _ _ _ i => i.is (by simp))

theorem defType_makes {h : Heap} {b : Bytes} (ho : c.HeapOk h) :
    c.Makes h (fun p h' => c.Is [.Typename] p h' ∧ (h'.cell p).back = 0 ∧ h.next ≤ p) (defType c.e.cfg h b {}) := by
  refine guardName_makes (guardOpt_makes (guardOpt_makes (guardOpt_makes ((finish_makes ho (no_slots rfl)).imp ?_))))
  rintro _ _ - ⟨rfl, rfl⟩
  have : (made h { type := .Typename, name := b, attributes := 0, specs := 0, body := 0, typeTag := 0 }).cell h.next =
      { type := .Typename, name := b, attributes := 0, specs := 0, body := 0, typeTag := 0 } := by
    show (if h.next = h.next then _ else _) = _
    rw [if_pos rfl]
  refine ⟨⟨ho.next, Nat.lt_succ_self _, ?_⟩, ?_, Nat.le_refl _⟩
  · rw [this]; simp
  · rw [this]

theorem defSpecifier_makes {h : Heap} {spec : Specifier} (ho : c.HeapOk h) : c.Makes h (c.Is [.Specifiers]) (defSpecifier c.e.cfg h spec) := by
  unfold defSpecifier
  refine Ctx.Makes.bind (Grow.refl _) (finish_is ho (no_slots rfl)) ?_
  intro p h1 ho1 hg1 hp
  refine Ctx.Makes.bind hg1 (specifiersAppend_makes ho1 (.inr hp.1)) ?_
  intro _ h2 ho2 hg2 _
  exact ⟨ho2, hg1.trans hg2, (hp.is (by simp)).grow hg2⟩

theorem specsLoop_makes {r : Nat} (hr : c.N ≤ r) : ∀ {ss : List Specifier} {h : Heap}, c.HeapOk h →
    c.Makes h (fun p _ => p = r) (specsLoop c.e.cfg r h ss)
  | [], _, ho => ⟨ho, Grow.refl _, rfl⟩
  | s :: ss, h, ho => by
    unfold specsLoop
    refine Ctx.Makes.bind (Grow.refl _) (specifiersAppend_makes ho (.inr hr)) ?_
    intro _ h2 ho2 hg2 _
    exact (specsLoop_makes hr ho2).grow hg2

theorem defSpecifiers_makes {h : Heap} {ss : List Specifier} (ho : c.HeapOk h) : c.Makes h (c.Is [.Specifiers]) (defSpecifiers c.e.cfg h ss) := by
  unfold defSpecifiers
  split
  · exact reject_makes
  · split
    · exact reject_makes
    · refine Ctx.Makes.bind (Grow.refl _) (finish_is ho (no_slots rfl)) ?_
      intro p h1 ho1 hg1 hp
      refine ((specsLoop_makes hp.1 ho1).imp ?_).grow hg1
      rintro q h2 hg2 rfl
      exact (hp.is (by simp)).grow hg2

/-! ## Classes and their interfaces -/

/-- The types of a list are linked to one another in this order, the last one to none. -/
def Line (h : Heap) : List Nat → Prop
  | [] => True
  | [p] => (h.cell p).back = 0
  | p :: q :: l => (h.cell p).back = q ∧ Line h (q :: l)

theorem Line.congr {h h' : Heap} : ∀ {l : List Nat}, (∀ p ∈ l, (h'.cell p).back = (h.cell p).back) → Line h l → Line h' l
  | [], _, _ => trivial
  | [p], hc, hl => by
    show (h'.cell p).back = 0
    rw [hc p (by simp)]
    exact hl
  | p :: q :: l, hc, hl => ⟨by rw [hc p (by simp)]; exact hl.1, Line.congr (fun r hr => hc r (List.mem_cons_of_mem _ hr)) hl.2⟩

/-- The search for the last type. -/
theorem lastSlot_line {h : Heap} : ∀ {l : List Nat} {p fuel : Nat}, Line h (p :: l) → (∀ q ∈ p :: l, h.Valid q) → l.length < fuel →
    lastSlot h fuel p = .ok ((p :: l).getLast (List.cons_ne_nil _ _))
  | [], p, fuel, hl, hv, hf => by
    cases fuel with
    | zero => omega
    | succ fuel =>
      unfold lastSlot Heap.get
      rw [if_pos (hv p (by simp)), Res.ok_bind, if_pos (show (h.cell p).back = 0 from hl)]
      rfl
  | q :: l, p, fuel, hl, hv, hf => by
    cases fuel with
    | zero => omega
    | succ fuel =>
      have hq := hv q (by simp)
      unfold lastSlot Heap.get
      rw [if_pos (hv p (by simp)), Res.ok_bind, hl.1, if_neg (Nat.ne_of_gt hq.1),
        lastSlot_line hl.2 (fun r hr => hv r (List.mem_cons_of_mem _ hr)) (by simp at hf; omega)]
      simp

theorem Line.snoc {h h' : Heap} {i : Nat} : ∀ {l : List Nat} {p : Nat}, (p :: l).Nodup → i ∉ p :: l → Line h (p :: l) →
    (∀ q, q ≠ (p :: l).getLast (List.cons_ne_nil _ _) → (h'.cell q).back = (h.cell q).back) →
    (h'.cell ((p :: l).getLast (List.cons_ne_nil _ _))).back = i → (h.cell i).back = 0 → Line h' (p :: (l ++ [i]))
  | [], p, _, hi, hl, hc, hb, h0 => by
    refine ⟨hb, ?_⟩
    show (h'.cell i).back = 0
    rw [hc i (by intro h; apply hi; simp only [List.getLast_singleton] at h; simp [h])]
    exact h0
  | q :: l, p, hn, hi, hl, hc, hb, h0 => by
    have hn' := List.nodup_cons.mp hn
    refine ⟨?_, Line.snoc hn'.2 (fun h => hi (List.mem_cons_of_mem _ h)) hl.2 ?_ ?_ h0⟩
    · rw [hc p, hl.1]
      intro h
      apply hn'.1
      rw [List.getLast_cons (List.cons_ne_nil _ _)] at h
      rw [h]
      exact List.getLast_mem _
    · intro r hr
      apply hc
      rw [List.getLast_cons (List.cons_ne_nil _ _)]
      exact hr
    · rw [List.getLast_cons (List.cons_ne_nil _ _)] at hb
      exact hb

/-- What is known of a class and of the types it derives from. -/
structure Derived (c : Ctx) (g h : Heap) (r parent : Nat) (l is : List Nat) : Prop where
  ok : c.HeapOk h
  grow : Grow g h
  self : c.N ≤ r
  selfn : r < h.next
  typ : (h.cell r).typ = parent
  type : (h.cell r).type ≠ .Typename
  line : Line h (parent :: l)
  all : ∀ p ∈ parent :: (l ++ is), c.Is [.Typename] p h ∧ g.next ≤ p
  free : ∀ i ∈ is, (h.cell i).back = 0
  nodup : (parent :: (l ++ is)).Nodup

theorem Ctx.Is.typename {p : Nat} {h : Heap} (i : c.Is [.Typename] p h) : (h.cell p).type = .Typename := by
  have := i.2.2
  simpa using this

theorem addInterface_keeps {g h : Heap} {r parent fuel i : Nat} {l is : List Nat} (d : Derived c g h r parent l (i :: is)) (hf : l.length < fuel) :
    c.Keeps g (fun h' => Derived c g h' r parent (l ++ [i]) is ∧ (h'.cell r).type = (h.cell r).type ∧ h'.next = h.next) (addInterface fuel h r i) := by
  have hne : ∀ p ∈ parent :: (l ++ i :: is), p ≠ r := by
    intro p hp he
    subst he
    exact d.type (d.all p hp).1.typename
  have hi := d.all i (by simp)
  have hpar := d.all parent (by simp)
  unfold addInterface
  refine .assert fun _ => .assert fun _ => .get fun _ _ => ?_
  rw [d.typ, if_pos hpar.1.ne]
  refine Ctx.Keeps.bind d.grow (upd_keeps d.ok (.inr d.self) ?_ rfl (fun _ _ => rfl)) ?_
  · intro _ _ l
    exact ⟨l.slots, l.front, l.back, l.nt⟩
  · intro h1 ho1 hg1 he
    subst he
    have hsame : ∀ p ∈ parent :: (l ++ i :: is), (put h r { h.cell r with num := 3 }).cell p = h.cell p := by
      intro p hp
      rw [put_cell, if_neg (hne p hp)]
    have hline : Line (put h r { h.cell r with num := 3 }) (parent :: l) :=
      d.line.congr fun p hp => by
        rw [hsame p (by
          rcases List.mem_cons.mp hp with h | h
          · simp [h]
          · simp [h])]
    have hall1 : ∀ p ∈ parent :: (l ++ i :: is), c.Is [.Typename] p (put h r { h.cell r with num := 3 }) := fun p hp => (d.all p hp).1.grow hg1
    have hsub : ∀ p ∈ parent :: l, p ∈ parent :: (l ++ i :: is) := by
      intro p hp
      rcases List.mem_cons.mp hp with h | h
      · simp [h]
      · simp [h]
    rw [lastSlot_line hline (fun q hq => ⟨by have := (hall1 q (hsub q hq)).1; have := c.pos; omega, (hall1 q (hsub q hq)).2.1⟩) hf, Res.ok_bind]
    have hlast : (parent :: l).getLast (List.cons_ne_nil _ _) ∈ parent :: l := List.getLast_mem _
    generalize hsl : (parent :: l).getLast (List.cons_ne_nil _ _) = slot at hlast
    have hslot := d.all slot (hsub _ hlast)
    have hsl1 := hall1 slot (hsub _ hlast)
    -- the slot is written
    unfold Heap.upd
    rw [if_pos ⟨by have := hsl1.1; have := c.pos; omega, hsl1.2.1⟩]
    show c.Keeps g _ (.ok (put (put h r { h.cell r with num := 3 }) slot { (put h r { h.cell r with num := 3 }).cell slot with back := i }))
    rw [hsame slot (hsub _ hlast)]
    have hty : (h.cell slot).type = .Typename := hslot.1.typename
    have hcell : ∀ q, (put (put h r { h.cell r with num := 3 }) slot { h.cell slot with back := i }).cell q =
        if q = slot then { h.cell slot with back := i } else (put h r { h.cell r with num := 3 }).cell q := fun _ => rfl
    have hgr : Grow g (put (put h r { h.cell r with num := 3 }) slot { h.cell slot with back := i }) := by
      refine ⟨d.grow.next, ?_, ?_⟩
      · intro p hp
        rw [hcell]
        split
        · rename_i e; subst e; have := hslot.2; omega
        · exact (d.grow.trans hg1).type p hp
      · intro p hp ht
        rw [hcell]
        split
        · rename_i e; subst e; have := hslot.2; omega
        · exact (d.grow.trans hg1).back p hp ht
    have hok : c.HeapOk (put (put h r { h.cell r with num := 3 }) slot { h.cell slot with back := i }) := by
      have htys : ∀ q, q < h.next → ((put (put h r { h.cell r with num := 3 }) slot { h.cell slot with back := i }).cell q).type =
          ((put h r { h.cell r with num := 3 }).cell q).type := by
        intro q hq
        rw [hcell]
        split
        · rename_i e; subst e; rw [hsame _ (hsub _ hlast)]
        · rfl
      refine ⟨ho1.next, ?_, ?_, ?_⟩
      · intro p hp hp'
        rw [hcell, if_neg (by have := hslot.1.1; omega)]
        exact ho1.old p hp hp'
      · obtain ⟨q, hq⟩ := ho1.empty
        refine ⟨q, ?_⟩
        rw [hcell, if_neg (by have := hslot.1.1; have := c.tE; omega)]
        exact hq
      · intro p hp hp'
        have hnt : ∀ q, NT (put h r { h.cell r with num := 3 }) q → NT (put (put h r { h.cell r with num := 3 }) slot { h.cell slot with back := i }) q := by
          intro q hq
          rcases hq with hq | hq
          · exact .inl hq
          · exact .inr ⟨hq.1, by rw [htys q hq.1]; exact hq.2⟩
        rw [hcell]
        split
        · have lk := d.ok.links slot hslot.1.1 hslot.1.2.1
          exact ⟨lk.slots, lk.front, hi.1.fr, fun t => (t hty).elim⟩
        · have lk := ho1.links p hp hp'
          exact ⟨lk.slots, lk.front, lk.back, fun t => ⟨hnt _ (lk.nt t).1, hnt _ (lk.nt t).2⟩⟩
    have hrs : r ≠ slot := fun e => (hne slot (hsub _ hlast)) e.symm
    have hnd : (parent :: (l ++ i :: is)).Nodup := d.nodup
    have hnd1 : (parent :: l).Nodup ∧ i ∉ parent :: l ∧ i ∉ is ∧ ∀ j ∈ is, j ∉ parent :: l := by
      have : (parent :: l ++ (i :: is)).Nodup := hnd
      rw [List.nodup_append] at this
      obtain ⟨h1, h2, h3⟩ := this
      have h2 := List.nodup_cons.mp h2
      exact ⟨h1, fun h => h3 i h i (by simp) rfl, h2.1, fun j hj h => h3 j h j (by simp [hj]) rfl⟩
    refine ⟨hok, hgr, ⟨hok, hgr, d.self, d.selfn, ?_, ?_, ?_, ?_, ?_, ?_⟩, ?_, rfl⟩
    · rw [hcell, if_neg hrs, put_cell, if_pos rfl]; exact d.typ
    · rw [hcell, if_neg hrs, put_cell, if_pos rfl]; exact d.type
    · refine Line.snoc hnd1.1 hnd1.2.1 hline ?_ ?_ ?_
      · intro q hq
        rw [hcell, if_neg (by rw [← hsl]; exact hq)]
      · rw [hsl, hcell, if_pos rfl]
      · rw [hsame i (by simp)]
        exact d.free i (by simp)
    · intro p hp
      have hp' : p ∈ parent :: (l ++ i :: is) := by simpa using hp
      refine ⟨⟨(d.all p hp').1.1, (d.all p hp').1.2.1, ?_⟩, (d.all p hp').2⟩
      rw [hcell]
      split
      · simp [hty]
      · exact (hall1 p hp').2.2
    · intro j hj
      rw [hcell, if_neg (by intro e; subst e; exact hnd1.2.2.2 j hj hlast), hsame j (by simp [hj])]
      exact d.free j (by simp [hj])
    · simpa using hnd
    · rw [hcell, if_neg hrs, put_cell, if_pos rfl]

theorem addInterfaces_keeps {g : Heap} {r parent fuel : Nat} : ∀ {is l : List Nat} {h : Heap}, Derived c g h r parent l is →
    l.length + is.length ≤ fuel → c.Keeps g (fun h' => (h'.cell r).type = (h.cell r).type ∧ h'.next = h.next) (addInterfaces fuel h r is)
  | [], _, _, d, _ => ⟨d.ok, d.grow, rfl, rfl⟩
  | i :: is, l, h, d, hf => by
    unfold addInterfaces
    have := addInterface_keeps (fuel := fuel) d (by simp at hf; omega)
    revert this
    cases addInterface fuel h r i with
    | ok h' =>
      rintro ⟨-, -, d', e1, e2⟩
      exact (addInterfaces_keeps d' (by simp at hf ⊢; omega)).imp fun h2 hh => ⟨hh.1.trans e1, hh.2.trans e2⟩
    | hang => exact id
    | _ => exact fun _ => trivial

/-- What `parents` gives: no type at all, or a type and others, none of them linked. -/
structure Ctx.Bases (c : Ctx) (g h : Heap) (parent : Nat) (is : List Nat) : Prop where
  none : parent = 0 → is = []
  all : parent ≠ 0 → ∀ p ∈ parent :: is, c.Is [.Typename] p h ∧ g.next ≤ p ∧ (h.cell p).back = 0
  sorted : (parent :: is).Pairwise (· < ·)

theorem Ctx.Bases.grow {g h h' : Heap} {parent : Nat} {is : List Nat} (b : c.Bases g h parent is) (hg : Grow h h') : c.Bases g h' parent is :=
  ⟨b.none, fun hn p hp => by
    obtain ⟨h1, h2, h3⟩ := b.all hn p hp
    exact ⟨h1.grow hg, h2, (hg.back p h1.2.1 h1.typename).trans h3⟩, b.sorted⟩

theorem sorted_length {n : Nat} : ∀ {l : List Nat} {a : Nat}, (∀ x ∈ l, a ≤ x ∧ x < n) → l.Pairwise (· < ·) → l.length ≤ n - a
  | [], _, _, _ => Nat.zero_le _
  | x :: l, a, hl, hp => by
    have hx := hl x (by simp)
    have hp := List.pairwise_cons.mp hp
    have := sorted_length (n := n) (l := l) (a := x + 1) (fun y hy => ⟨hp.1 y hy, (hl y (by simp [hy])).2⟩) hp.2
    simp only [List.length_cons]
    omega

/-- The end of `def_class` and `def_struct`. -/
theorem interfaces_makes {g h : Heap} {fuel r parent : Nat} {is : List Nat} {ts : List CodeType} (ho : c.HeapOk h) (hg : Grow g h)
    (hr : c.Is ts r h) (hr' : (h.cell r).type ≠ .Typename) (ht : (h.cell r).typ = parent) (hb : c.Bases g h parent is) (hf : h.next ≤ fuel) :
    c.Makes g (c.Is ts) ((addInterfaces fuel h r is).bind fun h => .ok (r, h)) := by
  by_cases hp : parent = 0
  · rw [hb.none hp]
    exact ⟨ho, hg, hr⟩
  · have hlen := sorted_length (n := h.next) (a := 0) (l := parent :: is) (fun x hx => ⟨Nat.zero_le _, (hb.all hp x hx).1.2.1⟩) hb.sorted
    have d : Derived c g h r parent [] is := by
      refine ⟨ho, hg, hr.1, hr.2.1, ht, hr', ?_, ?_, ?_, ?_⟩
      · exact (hb.all hp parent (by simp)).2.2
      · intro p hq
        exact ⟨(hb.all hp p hq).1, (hb.all hp p hq).2.1⟩
      · intro i hi
        exact (hb.all hp i (by simp [hi])).2.2
      · exact hb.sorted.imp (fun h => Nat.ne_of_lt h)
    have := addInterfaces_keeps (fuel := fuel) d (by simp at hlen ⊢; omega)
    revert this
    cases he : addInterfaces fuel h r is with
    | ok h' =>
      rintro ⟨h1, h2, h3, h4⟩
      exact ⟨h1, h2, hr.1, by rw [h4]; exact hr.2.1, by rw [h3]; exact hr.2.2⟩
    | hang => exact id
    | _ => exact fun _ => trivial

/-- The node of a class or struct. -/
theorem made_self {h : Heap} {n : Node} : (made h n).cell h.next = n := by
  show (if h.next = h.next then n else _) = n
  rw [if_pos rfl]

theorem defClass_makes {g h : Heap} {name : Bytes} {p : OptsStruct} (ho : c.HeapOk h) (hg : Grow g h) (hb : c.Bases g h p.parent p.interfaces)
    (h1 : c.Fr p.body) (h2 : c.Ref p.attributes) (h3 : c.Ref p.specifiers) :
    c.Makes g (c.Is [.Class, .Class_Fwd]) (defClass (h.next + 1) c.e.cfg h name p) := by
  have hpar : c.Ref p.parent := by
    by_cases hp : p.parent = 0
    · rw [hp]; exact c.ref_zero
    · exact (hb.all hp _ (by simp)).1.ref
  refine guardName_makes (guardOpt_makes (guardOpt_makes (guardOpt_makes ?_)))
  refine Ctx.Makes.bind hg (finish_makes ho ?_) ?_
  · simp [slots, h1.ref, h2, h3, hpar, c.ref_zero]
  · rintro r h' ho' hg' ⟨rfl, rfl⟩
    generalize hn : ({
      type := if p.body = 0 then CodeType.Class_Fwd else .Class, name := name, moduleFlags := p.mflags,
      attributes := p.attributes, specs := p.specifiers, num := p.parentAccess, typ := p.parent, body := p.body } : Node) = n at *
    have hi : c.Is [.Class, .Class_Fwd] h.next (made h n) :=
      ⟨ho.next, Nat.lt_succ_self _, by rw [made_self, ← hn]; dsimp only; split <;> simp⟩
    dsimp only
    refine Ctx.Keeps.makes (hg.trans hg') (V := fun h2 => (h2.cell h.next).typ = p.parent ∧ h2.next = (made h n).next) (h := made h n) ?_ ?_
    · split
      · exact ⟨ho', Grow.refl _, by rw [made_self, ← hn], rfl⟩
      · refine (upd_keeps ho' h1 ?_ rfl (fun _ _ => rfl)).imp ?_
        · intro _ _ l
          exact ⟨ref_parent l.slots hi.ref, l.front, l.back, l.nt⟩
        · rintro h2 rfl
          refine ⟨?_, rfl⟩
          rw [put_cell]
          split
          · rename_i e; rw [← e, made_self, ← hn]
          · rw [made_self, ← hn]
    · intro h2 ho2 hg2 ht
      refine interfaces_makes ho2 ((hg.trans hg').trans hg2) (hi.grow hg2) ?_ ht.1 ((hb.grow hg').grow hg2) (by rw [ht.2]; exact Nat.le_refl _)
      have := (hi.grow hg2).2.2
      intro h
      rw [h] at this
      simp at this

theorem defStruct_makes {g h : Heap} {name : Bytes} {p : OptsStruct} (ho : c.HeapOk h) (hg : Grow g h) (hb : c.Bases g h p.parent p.interfaces)
    (h1 : c.Ref p.body) (h2 : c.Ref p.attributes) (h3 : c.Ref p.specifiers) :
    c.Makes g (c.Is [.Struct, .Struct_Fwd]) (defStruct (h.next + 1) c.e.cfg h name p) := by
  have hpar : c.Ref p.parent := by
    by_cases hp : p.parent = 0
    · rw [hp]; exact c.ref_zero
    · exact (hb.all hp _ (by simp)).1.ref
  refine guardOpt_makes (guardOpt_makes (guardOpt_makes ?_))
  refine Ctx.Makes.bind hg (finish_makes ho ?_) ?_
  · simp [slots, h1, h2, h3, hpar, c.ref_zero]
  · rintro r h' ho' hg' ⟨rfl, rfl⟩
    generalize hn : ({
      type := if p.body = 0 then CodeType.Struct_Fwd else .Struct, name := name, moduleFlags := p.mflags,
      attributes := p.attributes, specs := p.specifiers, num := p.parentAccess, typ := p.parent, body := p.body } : Node) = n at *
    have hi : c.Is [.Struct, .Struct_Fwd] h.next (made h n) :=
      ⟨ho.next, Nat.lt_succ_self _, by rw [made_self, ← hn]; dsimp only; split <;> simp⟩
    dsimp only
    refine interfaces_makes ho' (hg.trans hg') hi ?_ (by rw [made_self, ← hn]) (hb.grow hg') (Nat.le_refl _)
    have := hi.2.2
    intro h
    rw [h] at this
    simp at this

/-! ## Operators -/

/-- A failed validation ends the program. -/
def Valid (x : Res OpVal) : Prop := x ≠ .ok .fail

theorem Valid.bind {x : Res α} {f : α → Res OpVal} (h : ∀ a, Valid (f a)) : Valid (x.bind f) := by
  cases x with
  | ok a => exact h a
  | _ => exact fun h => nomatch h

theorem Valid.bindV {x : Res OpVal} {f : OpVal → Res OpVal} (hx : Valid x) (h : ∀ a, a ≠ .fail → Valid (f a)) : Valid (x.bind f) := by
  cases x with
  | ok a => exact h a (fun e => hx (by rw [e]))
  | _ => exact fun h => nomatch h

theorem Valid.ite {b : Prop} [Decidable b] {x y : Res OpVal} (hx : Valid x) (hy : Valid y) : Valid (if b then x else y) := by
  split <;> assumption

theorem Valid.stop : Valid .stop := fun h => nomatch h
theorem Valid.global : Valid (.ok .global) := fun h => nomatch h
theorem Valid.member : Valid (.ok .member) := fun h => nomatch h

theorem Valid.opFail {cfg : Cfg} (hf : cfg.fatal = true) : Valid (opFail cfg) := by
  unfold Ast.opFail
  rw [hf]
  exact fun h => nomatch h

theorem Valid.opParams {cfg : Cfg} {h : Heap} {p : Nat} {k : Node → Res OpVal} (hf : cfg.fatal = true) (hk : ∀ n, Valid (k n)) :
    Valid (opParams cfg h p k) := by
  unfold Ast.opParams
  exact .ite (.opFail hf) (.bind fun _ => .ite (.opFail hf) (hk _))

theorem operatorValidate_valid {fuel : Nat} {cfg : Cfg} {h : Heap} {op : Operator} {p r : Nat} (hf : cfg.fatal = true) :
    Valid (operatorValidate fuel cfg h op p r) := by
  unfold operatorValidate
  refine .ite (.opFail hf) (.ite .stop (.bind fun _ => .ite (.opFail hf) ?_))
  split
  case h_35 =>
    refine .bindV ?_ fun v hv => ?_
    · exact .ite .member (.bind fun _ => .ite (.opFail hf) (.ite (.opFail hf) .global))
    · rw [if_neg hv]
      exact .bind fun _ => .ite (.opFail hf) (fun h => hv (by injection h))
  all_goals
    repeat' first
      | exact Valid.stop
      | exact Valid.global
      | exact Valid.member
      | exact Valid.opFail hf
      | refine Valid.opParams hf fun _ => ?_
      | refine Valid.ite ?_ ?_
      | refine Valid.bind fun _ => ?_

abbrev operatorTypes : List CodeType := [.Operator, .Operator_Fwd, .Operator_Member, .Operator_Member_Fwd]

theorem defOperator_makes {h : Heap} {fuel : Nat} {op : Operator} {b : Bytes} {p : OptsOperator} (hh : c.hangs) (ho : c.HeapOk h)
    (h1 : c.Ref p.params) (h2 : c.Ref p.retType) (h3 : c.Ref p.body) (h4 : c.Ref p.specifiers) (h5 : c.Ref p.attributes) :
    c.Makes h (c.Is operatorTypes) (defOperator fuel c.e.cfg h op b p) := by
  unfold defOperator
  refine guardOpt_makes (guardOpt_makes ?_)
  have hv := operatorValidate_valid (fuel := fuel) (h := h) (op := op) (p := p.params) (r := p.retType) c.fatal
  cases he : operatorValidate fuel c.e.cfg h op p.params p.retType with
  | ok v =>
    rw [he] at hv
    rw [Res.ok_bind, if_neg (fun e => hv (by rw [e]))]
    unfold fmtText
    split
    · rw [Res.ok_bind]
      refine guardOpt_makes ((finish_is ho ?_).imp fun _ _ _ i => i.is ?_)
      · simp [slots, h1, h2, h3, h4, h5, c.ref_zero]
      · dsimp only; unfold operatorTypes; split <;> split <;> simp
    · trivial
  | hang => exact hh
  | _ => trivial

end Verif.Parse
