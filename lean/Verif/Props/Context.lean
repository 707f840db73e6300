import Verif.Model.Context
import Verif.Model.Constants
import Verif.Props.MakeCode
/-!
# C35: contexts and the constants
-/
namespace Verif.Context
open Verif.Code

/-! ## Specification -/

/-- The bytes of a node. -/
def Lib.bytes (l : Lib) (x : Nat × Nat) : Option (List (Option UInt8)) :=
  (l.ctxs[x.1]?).join.map fun c => (List.range c.cfg.size).map fun j => c.st.mem (x.2 + j)

/-- The context is alive. -/
def Lib.Alive (l : Lib) (i : Nat) : Prop := ∃ c, l.ctxs[i]? = some (some c)

/-- The nodes of two addresses share no byte. -/
def Lib.Apart (l : Lib) (x y : Nat × Nat) : Prop :=
  x.1 ≠ y.1 ∨ ∀ c, l.ctxs[x.1]? = some (some c) → x.2 + c.cfg.size ≤ y.2 ∨ y.2 + c.cfg.size ≤ x.2

/-- What a program can do without `reset`: start contexts whose allocators are sane and have enough memory, free contexts that hold no constants
(or the last one), switch between contexts, make nodes, and write inside nodes. -/
inductive Reach (k : Nat) : Lib → Prop
  | start : Reach k start
  | init {l l' : Lib} {cfg : PCfg} {mem : Mem} {b : Nat} {heap : List Nat} {f : Bool} (hr : Reach k l) (hg : GoodHeap cfg mem (b :: heap))
      (hk : k ≤ heap.length) (h : init k cfg mem b heap f l = .ok l') : Reach k l'
  | deinit {l l' : Lib} {i : Nat} (hr : Reach k l) (hc : (∀ x ∈ l.consts, x.1 ≠ i) ∨ l.counter = 1) (h : deinit i l = .ok l') : Reach k l'
  | setContext {l : Lib} {i : Nat} (hr : Reach k l) : Reach k (setContext i l)
  | make {l l' : Lib} {x : Nat × Nat} (hr : Reach k l) (hh : ∀ c, l.cur.bind (fun i => (l.ctxs[i]?).join) = some c → c.st.heap ≠ [])
      (h : make l = .ok (x, l')) : Reach k l'
  | write {l l' : Lib} {i a : Nat} {v : UInt8} (hr : Reach k l)
      (ha : ∀ c, l.ctxs[i]? = some (some c) → ∃ p ∈ c.st.nodes, p ≤ a ∧ a < p + c.cfg.size) (h : write i a v l = .ok l') : Reach k l'

/-! ## Proofs -/

theorem get_ok {l : Lib} {i : Nat} {c : Ctx} (h : l.get i = .ok c) : l.ctxs[i]? = some (some c) := by
  unfold Lib.get at h
  cases hx : l.ctxs[i]? with
  | none => rw [hx] at h; cases h
  | some o =>
    cases o with
    | none => rw [hx] at h; cases h
    | some d => rw [hx] at h; cases h; rfl

theorem get_eq {l : Lib} {i : Nat} {c : Ctx} (h : l.ctxs[i]? = some (some c)) : l.get i = .ok c := by
  unfold Lib.get
  rw [h]
  rfl

theorem makeNodes_spec {cfg : PCfg} : ∀ {k : Nat} {st : PSt}, MInv cfg st → k ≤ st.heap.length →
    ∃ ps st', makeNodes cfg k st = .ok (ps, st') ∧ MInv cfg st' ∧ ps.length = k ∧ st'.nodes = ps.reverse ++ st.nodes
  | 0, st, h, _ => ⟨[], st, rfl, h, rfl, rfl⟩
  | k + 1, st, h, hk => by
    obtain ⟨p, st1, e1, h1, hn1, hh1, -⟩ := makeCode_spec h (by omega)
    obtain ⟨ps, st2, e2, h2, hl, hn2⟩ := makeNodes_spec (k := k) h1 (by omega)
    refine ⟨p :: ps, st2, by unfold makeNodes; rw [e1, Res.ok_bind, e2, Res.ok_bind], h2, by simp [hl], ?_⟩
    rw [hn2, hn1]
    simp

/-- How many contexts are alive. -/
def alive (cs : List (Option Ctx)) : Nat := (cs.filter Option.isSome).length

theorem alive_append (a b : List (Option Ctx)) : alive (a ++ b) = alive a + alive b := by simp [alive]

theorem split_at {cs : List (Option Ctx)} {i : Nat} {o : Option Ctx} (h : cs[i]? = some o) : ∃ a b, cs = a ++ o :: b ∧ a.length = i := by
  obtain ⟨hi, e⟩ := List.getElem?_eq_some_iff.mp h
  exact ⟨cs.take i, cs.drop (i + 1), by rw [← e, List.getElem_cons_drop, List.take_append_drop], by simp; omega⟩

theorem alive_set {cs : List (Option Ctx)} {i : Nat} {c d : Ctx} (h : cs[i]? = some (some c)) : alive (cs.set i (some d)) = alive cs := by
  obtain ⟨a, b, rfl, rfl⟩ := split_at h
  simp [alive]

theorem alive_free {cs : List (Option Ctx)} {i : Nat} {c : Ctx} (h : cs[i]? = some (some c)) : alive (cs.set i none) + 1 = alive cs := by
  obtain ⟨a, b, rfl, rfl⟩ := split_at h
  simp [alive]
  omega

structure LInv (k : Nat) (l : Lib) : Prop where
  pools : ∀ (i : Nat) (c : Ctx), l.ctxs[i]? = some (some c) → MInv c.cfg c.st
  count : l.counter = alive l.ctxs
  consts : 0 < l.counter → l.consts.length = k ∧ l.consts.Nodup ∧ ∀ x ∈ l.consts, ∃ c : Ctx, l.ctxs[x.1]? = some (some c) ∧ x.2 ∈ c.st.nodes

theorem LInv.start (k : Nat) : LInv k start := ⟨fun i c h => by simp [Context.start] at h, rfl, fun h => absurd h (by simp [Context.start])⟩

/-- One context changes; its nodes stay. -/
theorem LInv.update {k : Nat} {l : Lib} (h : LInv k l) {i : Nat} {c d : Ctx} (hi : l.ctxs[i]? = some (some c)) (hd : MInv d.cfg d.st)
    (hn : ∀ x ∈ c.st.nodes, x ∈ d.st.nodes) : LInv k (l.set i (some d)) := by
  have hlt : i < l.ctxs.length := (List.getElem?_eq_some_iff.mp hi).1
  refine ⟨fun j e he => ?_, by rw [show (l.set i (some d)).counter = l.counter from rfl, h.count]; exact (alive_set hi).symm, fun hc => ?_⟩
  · simp only [Lib.set] at he
    by_cases hj : i = j
    · subst hj
      rw [List.getElem?_set_self hlt] at he
      cases he
      exact hd
    · rw [List.getElem?_set_ne hj] at he
      exact h.pools j e he
  · obtain ⟨h1, h2, h3⟩ := h.consts hc
    refine ⟨h1, h2, fun x hx => ?_⟩
    obtain ⟨e, he, hm⟩ := h3 x hx
    simp only [Lib.set]
    by_cases hj : i = x.1
    · rw [hj] at hi hlt
      rw [hi] at he
      cases he
      exact ⟨d, by rw [hj, List.getElem?_set_self hlt], hn _ hm⟩
    · exact ⟨e, by rw [List.getElem?_set_ne hj]; exact he, hm⟩

theorem nodup_pairs {i : Nat} {ps : List Nat} (h : ps.Nodup) : (ps.map fun p => (i, p)).Nodup := by
  induction ps with
  | nil => exact List.nodup_nil
  | cons p ps ih =>
    simp only [List.nodup_cons, List.map_cons] at h ⊢
    refine ⟨fun hm => ?_, ih h.2⟩
    obtain ⟨q, hq, e⟩ := List.mem_map.mp hm
    cases e
    exact h.1 hq

/-- `init`, in full. -/
theorem init_spec {k : Nat} {l : Lib} (h : LInv k l) {cfg : PCfg} {mem : Mem} {b : Nat} {heap : List Nat} {f : Bool}
    (hg : GoodHeap cfg mem (b :: heap)) (hk : k ≤ heap.length) :
    ∃ l', init k cfg mem b heap f l = .ok l' ∧ LInv k l' ∧ l'.counter = l.counter + 1 ∧ l'.cur = some l.ctxs.length ∧
      (0 < l.counter → l'.consts = l.consts ∧ ∀ x ∈ l.consts, l'.bytes x = l.bytes x) ∧
      (∃ c, l'.ctxs[l.ctxs.length]? = some (some c) ∧ (l.counter = 0 → c.enumMacro = true ∧ ∀ x ∈ l'.consts, x.1 = l.ctxs.length)) := by
  obtain ⟨st, e, hi, hh⟩ := pinit_inv hg
  unfold init
  rw [e, Res.ok_bind]
  unfold defineConstants
  by_cases hc : l.counter > 0
  · rw [if_pos hc, Res.ok_bind]
    refine ⟨_, rfl, ⟨?_, ?_, ?_⟩, rfl, rfl, fun _ => ⟨rfl, ?_⟩, ⟨cfg, st, f, false⟩, by simp, fun h => by omega⟩
    · intro i c hx
      simp only at hx
      by_cases hlt : i < l.ctxs.length
      · rw [List.getElem?_append_left hlt] at hx
        exact h.pools i c hx
      · rw [List.getElem?_append_right (by omega)] at hx
        cases hq : i - l.ctxs.length with
        | zero => rw [hq] at hx; cases hx; exact hi
        | succ n => rw [hq] at hx; simp at hx
    · simp only
      rw [alive_append, h.count]
      rfl
    · intro _
      obtain ⟨h1, h2, h3⟩ := h.consts hc
      refine ⟨h1, h2, fun x hx => ?_⟩
      obtain ⟨c, hx1, hx2⟩ := h3 x hx
      exact ⟨c, by rw [List.getElem?_append_left (List.getElem?_eq_some_iff.mp hx1).1]; exact hx1, hx2⟩
    · intro x hx
      obtain ⟨c, hx1, hx2⟩ := (h.consts hc).2.2 x hx
      unfold Lib.bytes
      simp only
      rw [List.getElem?_append_left (List.getElem?_eq_some_iff.mp hx1).1]
  · rw [if_neg hc]
    obtain ⟨ps, st', e2, h2, hl, hn⟩ := makeNodes_spec (cfg := cfg) (k := k) hi (by rw [hh]; exact hk)
    simp only [Res.ofOption_some, Res.ok_bind]
    rw [get_eq (c := ⟨cfg, st, f, false⟩) (by simp), Res.ok_bind, e2, Res.ok_bind, Res.ok_bind]
    have hset : ∀ d : Option Ctx, (l.ctxs ++ [some (⟨cfg, st, f, false⟩ : Ctx)]).set l.ctxs.length d = l.ctxs ++ [d] := by
      intro d
      rw [List.set_append_right _ _ (Nat.le_refl _)]
      simp
    have h0 : l.counter = 0 := by omega
    have hdead : ∀ (i : Nat) (c : Ctx), l.ctxs[i]? ≠ some (some c) := by
      intro i c hx
      obtain ⟨a, b, e, -⟩ := split_at hx
      have := h.count
      rw [h0, e, alive_append] at this
      simp [alive] at this
    refine ⟨_, rfl, ⟨?_, ?_, ?_⟩, rfl, rfl, fun hc => by omega, ⟨cfg, st', f, true⟩, ?_, fun _ => ⟨rfl, ?_⟩⟩
    · intro i c hx
      simp only [Lib.set, hset] at hx
      by_cases hlt : i < l.ctxs.length
      · rw [List.getElem?_append_left hlt] at hx
        exact absurd hx (hdead i c)
      · rw [List.getElem?_append_right (by omega)] at hx
        cases hq : i - l.ctxs.length with
        | zero => rw [hq] at hx; cases hx; exact h2
        | succ n => rw [hq] at hx; simp at hx
    · simp only [Lib.set, hset]
      rw [alive_append, h.count]
      rfl
    · intro _
      refine ⟨by simp [hl], ?_, fun x hx => ?_⟩
      · have := h2.nodup
        rw [hn, List.nodup_append] at this
        exact nodup_pairs (by simpa [List.Nodup, List.pairwise_reverse, ne_comm] using this.1)
      · obtain ⟨p, hp, rfl⟩ := List.mem_map.mp hx
        simp only [Lib.set, hset]
        exact ⟨⟨cfg, st', f, true⟩, by simp, by rw [hn]; simp [hp]⟩
    · simp only [Lib.set, hset]
      simp
    · intro x hx
      obtain ⟨p, -, rfl⟩ := List.mem_map.mp hx
      rfl

theorem deinit_inv {k : Nat} {l l' : Lib} (h : LInv k l) {i : Nat} (hc : (∀ x ∈ l.consts, x.1 ≠ i) ∨ l.counter = 1) (hd : deinit i l = .ok l') :
    LInv k l' := by
  unfold deinit at hd
  by_cases hpos : l.counter > 0
  · rw [show Res.assert (l.counter > 0) = .ok () from Res.assert_true hpos, Res.ok_bind] at hd
    obtain ⟨c, hg, hd⟩ := Res.bind_eq_ok.mp hd
    have hi := get_ok hg
    split at hd
    · cases hd
      have ha := alive_free hi
      refine ⟨fun j e he => ?_, ?_, fun hc' => ?_⟩
      · simp only [Lib.set] at he
        by_cases hj : i = j
        · subst hj
          rw [List.getElem?_set_self (List.getElem?_eq_some_iff.mp hi).1] at he
          cases he
        · rw [List.getElem?_set_ne hj] at he
          exact h.pools j e he
      · have := h.count
        simp only [Lib.set]
        omega
      · simp only at hc'
        obtain ⟨h1, h2, h3⟩ := h.consts hpos
        have hne := hc.resolve_right (by omega)
        refine ⟨h1, h2, fun x hx => ?_⟩
        obtain ⟨e, he, hm⟩ := h3 x hx
        exact ⟨e, by simp only [Lib.set]; rw [List.getElem?_set_ne (fun e => hne x hx e.symm)]; exact he, hm⟩
    · cases hd
  · have : Res.assert (l.counter > 0) = .stop := by simp [Res.assert, hpos]
    rw [this] at hd
    cases hd

/-- `make_code`, in full. -/
theorem make_spec {k : Nat} {l : Lib} (h : LInv k l) {i : Nat} {c : Ctx} (hcur : l.cur = some i) (hi : l.ctxs[i]? = some (some c))
    (hh : c.st.heap ≠ []) : ∃ p st', make l = .ok ((i, p), l.set i (some { c with st := st' })) ∧ LInv k (l.set i (some { c with st := st' })) ∧
      p ∈ st'.nodes ∧
      (∀ j, p ≤ j → j < p + c.cfg.size → st'.mem j = some 0) ∧
      (∀ x ∈ c.st.nodes, (x + c.cfg.size ≤ p ∨ p + c.cfg.size ≤ x) ∧ x ≠ p ∧ ∀ j, x ≤ j → j < x + c.cfg.size → st'.mem j = c.st.mem j) := by
  obtain ⟨p, st', e, hinv, hn, -, hz, hx⟩ := makeCode_spec (h.pools i c hi) (ne_len hh)
  refine ⟨p, st', ?_, h.update hi hinv (fun x hm => by simp only; rw [hn]; simp [hm]), by rw [hn]; simp, hz, hx⟩
  unfold make
  rw [hcur, Res.ofOption_some, Res.ok_bind, get_eq hi, Res.ok_bind, e, Res.ok_bind]

theorem reach_inv {k : Nat} {l : Lib} (h : Reach k l) : LInv k l := by
  induction h with
  | start => exact LInv.start k
  | init hr hg hk he ih =>
    obtain ⟨l2, e, hi, -⟩ := init_spec ih hg hk
    rw [he] at e
    cases e
    exact hi
  | deinit hr hc he ih => exact deinit_inv ih hc he
  | setContext hr ih => exact ⟨ih.pools, ih.count, ih.consts⟩
  | @make l l' x hr hh he ih =>
    have he0 := he
    unfold make at he
    obtain ⟨i, hcur, he⟩ := Res.bind_eq_ok.mp he
    have hcur : l.cur = some i := by cases hq : l.cur <;> rw [hq] at hcur <;> cases hcur; rfl
    obtain ⟨c, hg, he⟩ := Res.bind_eq_ok.mp he
    have hi := get_ok hg
    obtain ⟨p, st', e, hinv, -⟩ := make_spec ih hcur hi (hh c (by rw [hcur]; simp [hi]))
    rw [he0] at e
    cases e
    exact hinv
  | @write l l' i a v hr ha he ih =>
    unfold write at he
    obtain ⟨c, hg, he⟩ := Res.bind_eq_ok.mp he
    obtain ⟨m, hm, he⟩ := Res.bind_eq_ok.mp he
    cases he
    have hi := get_ok hg
    refine ih.update hi ?_ fun x hx => hx
    exact write_inv (st' := { c.st with mem := m }) (a := a) (v := v) (ih.pools i c hi) (ha c hi) (by simp [pstep, hm])

/-! ## The theorems -/

/-- **C35**: `init` always succeeds. The first context makes the constants, in itself, and registers the macro; a later one leaves the constants
as they are, bytes included. -/
theorem C35_init {k : Nat} {l : Lib} (h : Reach k l) {cfg : PCfg} {mem : Mem} {b : Nat} {heap : List Nat} {f : Bool}
    (hg : GoodHeap cfg mem (b :: heap)) (hk : k ≤ heap.length) : ∃ l', init k cfg mem b heap f l = .ok l' ∧ l'.counter = l.counter + 1 ∧
      l'.cur = some l.ctxs.length ∧ l'.consts.length = k ∧ l'.consts.Nodup ∧ (∀ x ∈ l'.consts, l'.Alive x.1) ∧
      (0 < l.counter → l'.consts = l.consts ∧ ∀ x ∈ l.consts, l'.bytes x = l.bytes x) ∧
      (l.counter = 0 → (∀ x ∈ l'.consts, x.1 = l.ctxs.length) ∧ ∃ c, l'.ctxs[l.ctxs.length]? = some (some c) ∧ c.enumMacro = true) := by
  obtain ⟨l', e, hi, h1, h2, h3, c, h4, h5⟩ := init_spec (f := f) (reach_inv h) hg hk
  obtain ⟨h6, h7, h8⟩ := hi.consts (by omega)
  exact ⟨l', e, h1, h2, h6, h7, fun x hx => (h8 x hx).imp fun _ h => h.1, h3, fun h0 => ⟨(h5 h0).2, c, h4, (h5 h0).1⟩⟩

/-- **C35**: in every history without `reset` in which the context with the constants is freed last, the constants are distinct nodes of a context
that is alive; and a new node is none of them, shares no byte with any of them, and changes no byte of any of them. -/
theorem C35_constants {k : Nat} {l : Lib} (h : Reach k l) (h0 : 0 < l.counter) :
    l.consts.length = k ∧ l.consts.Nodup ∧ (∀ x ∈ l.consts, l.Alive x.1) ∧
    ∀ i c, l.cur = some i → l.ctxs[i]? = some (some c) → c.st.heap ≠ [] →
      ∃ x l', make l = .ok (x, l') ∧ l'.consts = l.consts ∧ ∀ y ∈ l.consts, y ≠ x ∧ l'.Apart y x ∧ l'.bytes y = l.bytes y := by
  have hi := reach_inv h
  obtain ⟨h1, h2, h3⟩ := hi.consts h0
  refine ⟨h1, h2, fun x hx => (h3 x hx).imp fun _ h => h.1, fun i c hcur hc hh => ?_⟩
  obtain ⟨p, st', e, -, -, -, hx⟩ := make_spec hi hcur hc hh
  refine ⟨_, _, e, rfl, fun y hy => ?_⟩
  obtain ⟨d, hd, hm⟩ := h3 y hy
  have hlt : i < l.ctxs.length := (List.getElem?_eq_some_iff.mp hc).1
  by_cases hji : y.1 = i
  · obtain ⟨j, q⟩ := y
    simp only at hji hd hm
    subst hji
    rw [hc] at hd
    cases hd
    obtain ⟨s1, s2, s3⟩ := hx q hm
    have hget : (l.set j (some { c with st := st' })).ctxs[j]? = some (some { c with st := st' }) := by
      simp only [Lib.set]
      rw [List.getElem?_set_self hlt]
    refine ⟨fun e => s2 (congrArg Prod.snd e), .inr fun d hd => ?_, ?_⟩
    · simp only at hd
      rw [hget] at hd
      cases hd
      exact s1
    · unfold Lib.bytes
      simp only
      rw [hget, hc]
      simp only [Option.join_some, Option.map_some, Option.some.injEq]
      exact List.map_congr_left fun t ht => by
        rw [List.mem_range] at ht
        exact s3 (q + t) (by omega) (by omega)
  · refine ⟨fun e => hji (congrArg Prod.fst e), .inl hji, ?_⟩
    unfold Lib.bytes Lib.set
    simp only
    rw [List.getElem?_set_ne (fun e => hji e.symm)]

/-- **C35**: freeing the last context and starting a new one is like starting the first. -/
theorem C35_restart {k : Nat} {l l1 : Lib} (h : Reach k l) (h0 : l.counter = 1) {i : Nat} (hd : deinit i l = .ok l1) {cfg : PCfg} {mem : Mem} {b : Nat}
    {heap : List Nat} {f : Bool} (hg : GoodHeap cfg mem (b :: heap)) (hk : k ≤ heap.length) :
    ∃ l2, init k cfg mem b heap f l1 = .ok l2 ∧ l2.counter = 1 ∧ l2.consts.length = k ∧ l2.consts.Nodup ∧
      (∀ x ∈ l2.consts, l2.Alive x.1 ∧ some x.1 = l2.cur) ∧ ∃ c, l2.ctxs[l1.ctxs.length]? = some (some c) ∧ c.enumMacro = true := by
  have h1 : Reach k l1 := .deinit h (.inr h0) hd
  have hc1 : l1.counter = 0 := by
    unfold deinit at hd
    obtain ⟨_, _, hd⟩ := Res.bind_eq_ok.mp hd
    obtain ⟨_, _, hd⟩ := Res.bind_eq_ok.mp hd
    split at hd
    · cases hd
      simp only
      omega
    · cases hd
  obtain ⟨l2, e, g1, g2, g3, g4, g5, -, g7⟩ := C35_init (f := f) h1 hg hk
  obtain ⟨g8, g9⟩ := g7 hc1
  exact ⟨l2, e, by omega, g3, g4, fun x hx => ⟨g5 x hx, by rw [g8 x hx, g2]⟩, g9⟩

/-! ## An example -/

def demoCfg : PCfg := ⟨4, 16⟩
def demoMem : Mem := fun i => if 4096 ≤ i ∧ i < 8192 then some 255 else none

theorem demo_good : GoodHeap demoCfg demoMem [4096, 4352, 4608] := by
  refine ⟨by decide, fun b hb => ?_, by decide⟩
  simp only [List.mem_cons, List.not_mem_nil, or_false] at hb
  have : demoCfg.numBlocks * (demoCfg.size + 16) = 128 := rfl
  rw [this]
  rcases hb with rfl | rfl | rfl
  all_goals
    refine ⟨by decide, by decide, fun i h1 h2 => ?_⟩
    unfold demoMem
    rw [if_pos (by omega)]
    rfl

/-- The constants, the counter and whether the macro is registered in each context. -/
def look (r : Res Lib) : Option (List (Nat × Nat) × Nat × List (Option Bool)) :=
  match r with
  | .ok l => some (l.consts, l.counter, l.ctxs.map (·.map (·.enumMacro)))
  | _ => none

/-- The node made next. -/
def next (r : Res Lib) : Option (Nat × Nat) :=
  match r.bind make with
  | .ok x => some x.1
  | _ => none

abbrev first : Res Lib := init 2 demoCfg demoMem 4096 [4352, 4608] true start

example : look first = some ([(0, 4096), (0, 4128)], 1, [some true]) := by decide +kernel
example : next first = some (0, 4160) := by decide +kernel
example : (∃ l, first = .ok l ∧ Reach 2 l ∧ 0 < l.counter) := by
  obtain ⟨l, h1, h2, -⟩ := C35_init (f := true) (.start (k := 2)) demo_good (by decide)
  exact ⟨l, h1, .init .start demo_good (by decide) h1, by omega⟩

/-- The number of constants. -/
theorem constants_count : (Parse.constantNodes ++ (Parse.typeNames.map fun n => Parse.globalBy fun c h => Ast.defType c h n {})).length = 23 ∧
    Parse.libraryTypeNames.length = 13 ∧ Parse.specNodes.length = 24 := by decide

/-! ## What does not hold -/

/-- C35 is false of `reset`: it does not make the constants again, yet gives their memory away: the next node is the first constant. -/
theorem C35_reset_aliases : look (first.bind (reset 2 0)) = some ([(0, 4096), (0, 4128)], 1, [some false]) ∧
    next (first.bind (reset 2 0)) = some (0, 4096) := by decide +kernel

theorem clearPools_last {m m' : Mem} {ps qs : List Pool} (h : clearPools m ps = .ok (qs, m')) {a : List Pool} {p : Pool} (hp : ps = a ++ [p]) :
    ∃ b, qs = b ++ [{ p with freeList := p.start }] := by
  induction ps generalizing m qs a with
  | nil => cases a <;> cases hp
  | cons q ps ih =>
    unfold clearPools at h
    obtain ⟨r, h1, h⟩ := Res.bind_eq_ok.mp h
    obtain ⟨rs, h2, h⟩ := Res.bind_eq_ok.mp h
    cases h
    cases a with
    | nil =>
      cases hp
      unfold clearPools at h2
      cases h2
      unfold Pool.clear at h1
      simp only [Res.bind_eq, Res.bind_eq_ok, Res.pure_eq] at h1
      obtain ⟨m1, _, h1⟩ := h1
      cases h1
      exact ⟨[], rfl⟩
    | cons a0 a =>
      cases hp
      obtain ⟨b, hb⟩ := ih h2 rfl
      exact ⟨r.1 :: b, by rw [hb]; rfl⟩

/-- C35 is false of `reset` for every context: the next node is the first block of its last pool, whatever lies there. -/
theorem C35_reset_next {k : Nat} {l l1 l2 : Lib} {i : Nat} {c : Ctx} {x : Nat × Nat} {a : List Pool} {p : Pool} (hc : 0 < l.counter)
    (hcur : l.cur = some i) (hi : l.ctxs[i]? = some (some c)) (hp : c.st.pools = a ++ [p]) (hs : p.start ≠ 0)
    (hr : reset k i l = .ok l1) (hm : make l1 = .ok (x, l2)) : x = (i, p.start) ∧ l1.consts = l.consts := by
  unfold reset at hr
  rw [get_eq hi, Res.ok_bind] at hr
  obtain ⟨r, h1, hr⟩ := Res.bind_eq_ok.mp hr
  unfold defineConstants at hr
  rw [if_pos (show (l.set i _).counter > 0 from hc)] at hr
  cases hr
  obtain ⟨b, hb⟩ := clearPools_last (m' := r.2) (qs := r.1) h1 hp
  refine ⟨?_, rfl⟩
  unfold make at hm
  rw [show (l.set i _).cur = l.cur from rfl, hcur, Res.ofOption_some, Res.ok_bind] at hm
  have hlt : i < l.ctxs.length := (List.getElem?_eq_some_iff.mp hi).1
  rw [get_eq (c := { c with st := { c.st with pools := r.1, mem := r.2, nodes := [] }, enumMacro := false })
    (by simp only [Lib.set]; rw [List.getElem?_set_self hlt]), Res.ok_bind] at hm
  obtain ⟨y, h2, hm⟩ := Res.bind_eq_ok.mp hm
  cases hm
  unfold makeCode ensurePool at h2
  simp only [hb, List.getLast?_append, List.getLast?_singleton, Option.some_or, Res.ofOption_some, Res.ok_bind, if_neg hs] at h2
  obtain ⟨z, h3, h2⟩ := Res.bind_eq_ok.mp h2
  obtain ⟨_, _, h2⟩ := Res.bind_eq_ok.mp h2
  cases h2
  unfold Pool.alloc at h3
  simp only [Res.bind_eq, Res.bind_eq_ok, Res.pure_eq, Res.ok.injEq] at h3
  obtain ⟨_, _, _, _, _, _, _, _, _, _, h3⟩ := h3
  rw [← h3]

/-- C35 is false of a second context: the macro `enum_underlying` is not registered in it. -/
theorem C35_second_context : look (first.bind (init 2 demoCfg demoMem 4096 [4352, 4608] true)) =
    some ([(0, 4096), (0, 4128)], 2, [some true, some false]) := by decide +kernel

/-- C35 is false when the first context is freed while another is alive: the constants stay where they were, and another `init` does not make new ones. -/
theorem C35_dangling : look (((first.bind (init 2 demoCfg demoMem 4096 [4352, 4608] true)).bind (deinit 0)).bind
    (init 2 demoCfg demoMem 4096 [4352, 4608] true)) = some ([(0, 4096), (0, 4128)], 2, [none, some false, some false]) := by decide +kernel

/-- `deinit` of a context with the fallback allocator succeeds: one context fewer, that one is gone, all others and the constants are as they were,
and if the freed context was the selected one then none is selected (otherwise the selection stays). -/
theorem C35_deinit {l : Lib} {i : Nat} {c : Ctx} (hc : 0 < l.counter) (hi : l.ctxs[i]? = some (some c)) (hf : c.fallback = true) :
    ∃ l', deinit i l = .ok l' ∧ l'.counter + 1 = l.counter ∧ ¬ l'.Alive i ∧ (∀ j, j ≠ i → l'.ctxs[j]? = l.ctxs[j]?) ∧ l'.consts = l.consts ∧
      (l.cur = some i → l'.cur = none) ∧ (l.cur ≠ some i → l'.cur = l.cur) := by
  unfold deinit
  rw [show Res.assert (l.counter > 0) = .ok () from Res.assert_true hc, Res.ok_bind, get_eq hi, Res.ok_bind, if_pos hf]
  refine ⟨_, rfl, by simp only; omega, ?_, fun j hj => List.getElem?_set_ne (Ne.symm hj), rfl, fun h => if_pos h, fun h => if_neg h⟩
  rintro ⟨d, hd⟩
  simp only [Lib.set] at hd
  rw [List.getElem?_set_self (List.getElem?_eq_some_iff.mp hi).1] at hd
  cases hd

/-- After that no node can be made until a context is selected again: `make_code` would read a null context. -/
theorem C35_deinit_make {l l' : Lib} {i : Nat} (hcur : l.cur = some i) (h : deinit i l = .ok l') : make l' = .ub := by
  unfold deinit at h
  obtain ⟨_, -, h⟩ := Res.bind_eq_ok.mp h
  obtain ⟨c, -, h⟩ := Res.bind_eq_ok.mp h
  split at h
  · cases h
    unfold make
    simp only [if_pos hcur]
    rfl
  · cases h

/-- The first context of the demo can be freed. -/
example : (match first.bind (deinit 0) with | .ok l => (l.cur, l.counter, l.ctxs.map Option.isSome) | _ => (some 7, 7, [])) = (none, 0, [false]) := by
  decide +kernel

/-- C35 is false when the user gives all allocators: `deinit` reads in front of a null array. -/
theorem C35_deinit_custom {l : Lib} {i : Nat} {c : Ctx} (hc : 0 < l.counter) (hi : l.ctxs[i]? = some (some c)) (hf : c.fallback = false) :
    deinit i l = .ub := by
  unfold deinit
  rw [show Res.assert (l.counter > 0) = .ok () from Res.assert_true hc, Res.ok_bind, get_eq hi, Res.ok_bind, hf]
  rfl

end Verif.Context
