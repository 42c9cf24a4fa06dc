import Verif.Spec.Tree
import Mathlib.Data.List.Perm.Basic
import Mathlib.Data.List.Count
import Mathlib.Data.List.Nodup
import Mathlib.Data.List.Forall2
import Mathlib.Data.List.Range

set_option autoImplicit false

namespace Verif.Engine
open Verif.Spec

variable {X T A : Type} {b : X} {t : T}

/-! ### stable sort is a permutation -/

theorem insertByKey_perm {α} (key : α → Nat) (a : α) (l : List α) : (insertByKey key a l).Perm (a :: l) := by
  induction l with
  | nil => exact List.Perm.refl _
  | cons b l ih =>
    unfold insertByKey
    split
    · exact List.Perm.refl _
    · exact (List.Perm.cons b ih).trans (List.Perm.swap a b l)

theorem stableSort_perm {α} (key : α → Nat) (l : List α) : (stableSort key l).Perm l := by
  unfold stableSort
  suffices h : ∀ acc : List α, (l.foldl (fun acc a => insertByKey key a acc) acc).Perm (acc ++ l) by
    simpa using h []
  induction l with
  | nil => intro acc; simp
  | cons a l ih =>
    intro acc
    rw [List.foldl_cons]
    refine (ih _).trans ?_
    refine (List.Perm.append_right l (insertByKey_perm key a acc)).trans ?_
    simpa using (List.perm_middle (a := a) (l₁ := acc) (l₂ := l)).symm

/-! ### configuration predicates -/

theorem tooDeep_eq_false {cfg : Cfg X T A} {h : Nat} :
    cfg.tooDeep h = false ↔ ∀ m, cfg.maxHeight = some m → h + 1 < m := by
  unfold Cfg.tooDeep
  cases cfg.maxHeight with
  | none => simp
  | some m => simp

theorem tooDeep_eq_true {cfg : Cfg X T A} {h : Nat} :
    cfg.tooDeep h = true → ¬ ∀ m, cfg.maxHeight = some m → h + 1 < m := by
  intro h1 h2
  rw [← tooDeep_eq_false, h1] at h2
  cases h2

/-- hits are lost exactly in parallel simulation -/
def dropHits (cfg : Cfg X T A) : Bool := cfg.parallel && decide (cfg.kind = .sim)

/-- the specification problem the loop solves -/
abbrev prob (cfg : Cfg X T A) : Problem X T A := problem cfg (dropHits cfg)

/-! ### The invariant -/

/-- children of a finished node -/
def KidsOK (cfg : Cfg X T A) (o : Nat → T) (nodes : List (Rec X T A)) (h : Nat) (qs : List Nat)
    (cs : List (Child X T)) : Prop :=
  List.Forall₂ (fun q c => ∃ rq, nodes[q]? = some rq ∧ rq.height = h + 1 ∧ rq.start = cfg.roundN c.start ∧
    rq.body = c.body ∧ o q = c.trace) qs cs

def Done (cfg : Cfg X T A) (o : Nat → T) (nodes : List (Rec X T A)) (p : Nat) (r : Rec X T A) : Prop :=
  (¬ (prob cfg).explored r.height r.start ∧ r.child = [] ∧ r.hits = cfg.noHits ∧ r.trace = o p) ∨
  ((prob cfg).explored r.height r.start ∧
    r.trace = ((prob cfg).expand ⟨r.height, r.start, r.body, o p⟩).trace ∧
    r.hits = ((prob cfg).expand ⟨r.height, r.start, r.body, o p⟩).hits ∧
    KidsOK cfg o nodes r.height r.child ((prob cfg).expand ⟨r.height, r.start, r.body, o p⟩).next)

structure Core (cfg : Cfg X T A) (b : X) (t : T) (o : Nat → T) (pend : List Nat) (nodes : List (Rec X T A)) : Prop where
  ids : ∀ (p : Nat) (r : Rec X T A), nodes[p]? = some r → r.id = p
  ne : nodes ≠ []
  nodup : pend.Nodup
  lt : ∀ p ∈ pend, p < nodes.length
  fresh : ∀ p ∈ pend, ∀ r : Rec X T A, nodes[p]? = some r → r.child = [] ∧ r.hits = cfg.noHits ∧ r.trace = o p
  done : ∀ p : Nat, p ∉ pend → ∀ r : Rec X T A, nodes[p]? = some r → Done cfg o nodes p r
  kidsPerm : (nodes.flatMap Rec.child).Perm (List.range' 1 (nodes.length - 1))
  kidsGt : ∀ (p : Nat) (r : Rec X T A), nodes[p]? = some r → ∀ q ∈ r.child, p < q ∧ q < nodes.length
  root : ∃ r, nodes[0]? = some r ∧ r.height = 0 ∧ r.start = cfg.roundN 0 ∧ r.body = b ∧ o 0 = t

theorem Core.perm {cfg : Cfg X T A} {o : Nat → T} {pend pend' : List Nat} {nodes : List (Rec X T A)} (h : Core cfg b t o pend nodes) (hp : pend.Perm pend') :
    Core cfg b t o pend' nodes where
  ids := h.ids
  ne := h.ne
  nodup := hp.nodup_iff.1 h.nodup
  lt p hm := h.lt p (hp.mem_iff.2 hm)
  fresh p hm := h.fresh p (hp.mem_iff.2 hm)
  done p hm := h.done p (fun hc => hm (hp.mem_iff.1 hc))
  kidsPerm := h.kidsPerm
  kidsGt := h.kidsGt
  root := h.root

/-- dropping a node that is not to be explored -/
theorem Core.skip {cfg : Cfg X T A} {o : Nat → T} {p : Nat} {pend : List Nat} {nodes : List (Rec X T A)} {r : Rec X T A} (h : Core cfg b t o (p :: pend) nodes)
    (hr : nodes[p]? = some r) (hx : ¬ (prob cfg).explored r.height r.start) : Core cfg b t o pend nodes where
  ids := h.ids
  ne := h.ne
  nodup := (List.nodup_cons.1 h.nodup).2
  lt q hm := h.lt q (List.mem_cons_of_mem _ hm)
  fresh q hm := h.fresh q (List.mem_cons_of_mem _ hm)
  done q hm := by
    by_cases hq : q = p
    · subst hq
      intro r' hr'
      rw [hr] at hr'; cases hr'
      obtain ⟨h1, h2, h3⟩ := h.fresh q List.mem_cons_self r hr
      exact Or.inl ⟨hx, h1, h2, h3⟩
    · exact h.done q (by simp [hq, hm])
  kidsPerm := h.kidsPerm
  kidsGt := h.kidsGt
  root := h.root

/-- the heap after processing the result of node `p` -/
def afterNodes (cfg : Cfg X T A) (nodes : List (Rec X T A)) (p : Nat) (r : Rec X T A) (res : Result X T A) :
    List (Rec X T A) :=
  nodes.set p { r with child := (List.range res.next.length).map (nodes.length + ·), trace := res.trace, hits := res.hits }
    ++ res.next.zipIdx.map (fun ci => mkChild cfg r.height (nodes.length - 1 : Int) ci.2 ci.1)

theorem flatMap_set_perm {α β} (f : α → List β) (l : List α) (p : Nat) (a b : α) (h : l[p]? = some a)
    (ha : f a = []) : ((l.set p b).flatMap f).Perm (l.flatMap f ++ f b) := by
  induction l generalizing p with
  | nil => simp at h
  | cons x l ih =>
    cases p with
    | zero =>
      simp at h; subst h
      simp [ha]
      exact List.perm_append_comm
    | succ p =>
      simp at h
      simp only [List.set_cons_succ, List.flatMap_cons, List.append_assoc]
      exact List.Perm.append_left _ (ih p h)

theorem map_range_add_eq_range' (n k : Nat) : (List.range k).map (n + ·) = List.range' n k := by
  rw [List.range_eq_range', List.map_add_range']; simp

theorem flatMap_kids_nil {α} (f : α → Rec X T A) (l : List α) (h : ∀ a, (f a).child = []) :
    (l.map f).flatMap Rec.child = [] := by
  induction l with
  | nil => rfl
  | cons a l ih => simp [h]

theorem afterNodes_length {cfg : Cfg X T A} {nodes : List (Rec X T A)} {p : Nat} {r : Rec X T A} {res : Result X T A} :
    (afterNodes cfg nodes p r res).length = nodes.length + res.next.length := by
  simp [afterNodes]

theorem afterNodes_lt {cfg : Cfg X T A} {nodes : List (Rec X T A)} {p : Nat} {r : Rec X T A} {res : Result X T A} {q : Nat} (hq : q < nodes.length) (hne : q ≠ p) :
    (afterNodes cfg nodes p r res)[q]? = nodes[q]? := by
  unfold afterNodes
  rw [List.getElem?_append_left (by simpa using hq), List.getElem?_set_ne (Ne.symm hne)]

theorem afterNodes_self {cfg : Cfg X T A} {nodes : List (Rec X T A)} {p : Nat} {r : Rec X T A} {res : Result X T A} (hp : p < nodes.length) :
    (afterNodes cfg nodes p r res)[p]? = some { r with
      child := (List.range res.next.length).map (nodes.length + ·), trace := res.trace, hits := res.hits } := by
  unfold afterNodes
  rw [List.getElem?_append_left (by simpa using hp), List.getElem?_set_self hp]

theorem afterNodes_ge {cfg : Cfg X T A} {nodes : List (Rec X T A)} {p : Nat} {r : Rec X T A} {res : Result X T A} {i : Nat} {c : Child X T} (hc : res.next[i]? = some c) :
    (afterNodes cfg nodes p r res)[nodes.length + i]? = some (mkChild cfg r.height (nodes.length - 1 : Int) i c) := by
  unfold afterNodes
  rw [List.getElem?_append_right (by simp)]
  simp [hc]

theorem afterNodes_cases {cfg : Cfg X T A} {nodes : List (Rec X T A)} {p : Nat} {r : Rec X T A} {res : Result X T A} {q : Nat} {rq : Rec X T A}
    (h : (afterNodes cfg nodes p r res)[q]? = some rq) :
    q < nodes.length ∨ ∃ i c, q = nodes.length + i ∧ res.next[i]? = some c ∧
      rq = mkChild cfg r.height (nodes.length - 1 : Int) i c := by
  by_cases hq : q < nodes.length
  · exact Or.inl hq
  · right
    obtain ⟨i, rfl⟩ := Nat.exists_eq_add_of_le (Nat.le_of_not_lt hq)
    cases hc : res.next[i]? with
    | none =>
      exfalso
      have hlt := (List.getElem?_eq_some_iff.1 h).1
      rw [afterNodes_length] at hlt
      have := List.getElem?_eq_none_iff.1 hc
      omega
    | some c =>
      rw [afterNodes_ge hc] at h
      exact ⟨i, c, rfl, hc, (Option.some.inj h).symm⟩

/-- original traces after adding children -/
def extend (o : Nat → T) (n : Nat) (cs : List (Child X T)) : Nat → T := fun q =>
  if q < n then o q else match cs[q - n]? with
    | some c => c.trace
    | none => o q

theorem extend_lt {o : Nat → T} {n : Nat} {cs : List (Child X T)} {q : Nat} (h : q < n) : extend o n cs q = o q := by
  simp [extend, h]

theorem extend_ge {o : Nat → T} {n : Nat} {cs : List (Child X T)} {i : Nat} {c : Child X T} (h : cs[i]? = some c) :
    extend o n cs (n + i) = c.trace := by
  simp [extend, h]

theorem Core.lastId {cfg : Cfg X T A} {o : Nat → T} {pend : List Nat} {nodes : List (Rec X T A)} (h : Core cfg b t o pend nodes) :
    ∃ last, nodes.getLast? = some last ∧ last.id = (nodes.length - 1 : Int) := by
  have hl : 0 < nodes.length := List.length_pos_iff.2 h.ne
  refine ⟨nodes.getLast h.ne, List.getLast?_eq_some_getLast h.ne, ?_⟩
  have : nodes[nodes.length - 1]? = some (nodes.getLast h.ne) := by
    rw [List.getLast_eq_getElem]; simp
  have := h.ids _ _ this
  omega

theorem Core.proc {cfg : Cfg X T A} {o : Nat → T} {p : Nat} {pend : List Nat} {nodes : List (Rec X T A)} {r : Rec X T A} (h : Core cfg b t o (p :: pend) nodes)
    (hr : nodes[p]? = some r) (hx : (prob cfg).explored r.height r.start)
    (res : Result X T A) (hres : res = (prob cfg).expand ⟨r.height, r.start, r.body, r.trace⟩) :
    Core cfg b t (extend o nodes.length res.next)
      (pend ++ (List.range res.next.length).map (nodes.length + ·)) (afterNodes cfg nodes p r res) := by
  have hp : p < nodes.length := (List.getElem?_eq_some_iff.1 hr).1
  obtain ⟨hc0, hh0, ht0⟩ := h.fresh p List.mem_cons_self r hr
  have hnd := List.nodup_cons.1 h.nodup
  have hpend : ∀ q ∈ pend, q < nodes.length := fun q hq => h.lt q (List.mem_cons_of_mem _ hq)
  have hn1 : 0 < nodes.length := List.length_pos_iff.2 h.ne
  -- a node of the old heap keeps its contents
  have keep : ∀ (q : Nat) (rq : Rec X T A), nodes[q]? = some rq → ∃ rq' : Rec X T A, (afterNodes cfg nodes p r res)[q]? = some rq' ∧
      rq'.height = rq.height ∧ rq'.start = rq.start ∧ rq'.body = rq.body := by
    intro q rq hq
    have hql : q < nodes.length := (List.getElem?_eq_some_iff.1 hq).1
    by_cases hqp : q = p
    · subst hqp
      rw [hr] at hq; cases hq
      exact ⟨_, afterNodes_self hql, rfl, rfl, rfl⟩
    · exact ⟨rq, by rw [afterNodes_lt hql hqp]; exact hq, rfl, rfl, rfl⟩
  refine ⟨?_, ?_, ?_, ?_, ?_, ?_, ?_, ?_, ?_⟩
  · intro q rq hq
    rcases afterNodes_cases hq with hl | ⟨i, c, rfl, hc, rfl⟩
    · by_cases hqp : q = p
      · subst hqp
        rw [afterNodes_self hl] at hq; cases hq
        exact h.ids q r hr
      · rw [afterNodes_lt hl hqp] at hq; exact h.ids q rq hq
    · simp only [mkChild]; push_cast; omega
  · intro he
    have := congrArg List.length he
    rw [afterNodes_length] at this
    simp only [List.length_nil] at this; omega
  · rw [List.nodup_append]
    refine ⟨hnd.2, ?_, ?_⟩
    · rw [map_range_add_eq_range']; exact List.nodup_range'
    · intro a ha b hb hab
      subst hab
      simp only [List.mem_map, List.mem_range] at hb
      obtain ⟨i, _, rfl⟩ := hb
      have := hpend _ ha
      omega
  · intro q hq
    rw [afterNodes_length]
    rcases List.mem_append.1 hq with hq | hq
    · have := hpend q hq; omega
    · simp only [List.mem_map, List.mem_range] at hq
      obtain ⟨i, hi, rfl⟩ := hq; omega
  · intro q hq rq hrq
    rcases List.mem_append.1 hq with hq | hq
    · have hl := hpend q hq
      have hne : q ≠ p := fun e => hnd.1 (e ▸ hq)
      rw [afterNodes_lt hl hne] at hrq
      rw [extend_lt hl]
      exact h.fresh q (List.mem_cons_of_mem _ hq) rq hrq
    · simp only [List.mem_map, List.mem_range] at hq
      obtain ⟨i, hi, rfl⟩ := hq
      have hc : res.next[i]? = some res.next[i] := by simp [hi]
      rw [afterNodes_ge hc] at hrq
      cases hrq
      exact ⟨rfl, rfl, (extend_ge hc).symm⟩
  · intro q hq rq hrq
    have hq1 : q ∉ pend := fun hc => hq (List.mem_append_left _ hc)
    rcases afterNodes_cases hrq with hl | ⟨i, c, rfl, hc, _⟩
    · by_cases hqp : q = p
      · subst hqp
        rw [afterNodes_self hl] at hrq; cases hrq
        right
        dsimp only
        rw [extend_lt hl, ← ht0]
        refine ⟨hx, by rw [hres], by rw [hres], ?_⟩
        rw [← hres]
        unfold KidsOK
        rw [List.forall₂_iff_get]
        refine ⟨by simp, ?_⟩
        intro i h1 h2
        have hc : res.next[i]? = some (res.next.get ⟨i, h2⟩) := by simp
        refine ⟨mkChild cfg r.height (nodes.length - 1 : Int) i (res.next.get ⟨i, h2⟩), ?_, rfl, rfl, rfl, ?_⟩
        · simp only [List.get_eq_getElem, List.getElem_map, List.getElem_range]
          exact afterNodes_ge (by simp)
        · simp only [List.get_eq_getElem, List.getElem_map, List.getElem_range]
          exact extend_ge (by simp)
      · rw [afterNodes_lt hl hqp] at hrq
        have hd := h.done q (by simp [hqp, hq1]) rq hrq
        unfold Done at hd ⊢
        rw [extend_lt hl]
        rcases hd with hd | ⟨h1, h2, h3, h4⟩
        · exact Or.inl hd
        · refine Or.inr ⟨h1, h2, h3, ?_⟩
          unfold KidsOK at h4 ⊢
          refine h4.imp ?_
          rintro a c ⟨ra, ha, e1, e2, e3, e4⟩
          obtain ⟨ra', ha', f1, f2, f3⟩ := keep a ra ha
          have hal : a < nodes.length := (List.getElem?_eq_some_iff.1 ha).1
          exact ⟨ra', ha', by rw [f1, e1], by rw [f2, e2], by rw [f3, e3], by rw [extend_lt hal, e4]⟩
    · exfalso
      apply hq
      apply List.mem_append_right
      simp only [List.mem_map, List.mem_range]
      exact ⟨i, (List.getElem?_eq_some_iff.1 hc).1, rfl⟩
  · rw [afterNodes_length]
    unfold afterNodes
    rw [List.flatMap_append, flatMap_kids_nil _ _ (fun a => rfl), List.append_nil]
    refine (flatMap_set_perm Rec.child nodes p r _ hr hc0).trans ?_
    refine (List.Perm.append_right _ h.kidsPerm).trans ?_
    dsimp only
    rw [map_range_add_eq_range']
    have e : nodes.length + res.next.length - 1 = (nodes.length - 1) + res.next.length := by omega
    rw [e, ← List.range'_append]
    have : 1 + 1 * (nodes.length - 1) = nodes.length := by omega
    rw [this]
  · intro q rq hrq a ha
    rw [afterNodes_length]
    rcases afterNodes_cases hrq with hl | ⟨i, c, rfl, hc, rfl⟩
    · by_cases hqp : q = p
      · subst hqp
        rw [afterNodes_self hl] at hrq; cases hrq
        simp only [List.mem_map, List.mem_range] at ha
        obtain ⟨i, hi, rfl⟩ := ha
        omega
      · rw [afterNodes_lt hl hqp] at hrq
        have := h.kidsGt q rq hrq a ha
        omega
    · simp [mkChild] at ha
  · obtain ⟨r0, h0, e1, e2, e3, e4⟩ := h.root
    obtain ⟨r0', h0', f1, f2, f3⟩ := keep 0 r0 h0
    exact ⟨r0', h0', by rw [f1, e1], by rw [f2, e2], by rw [f3, e3], by rw [extend_lt hn1, e4]⟩

/-! ### invariant of loop states -/

structure Inv (cfg : Cfg X T A) (b : X) (t : T) (s : St X T A) : Prop where
  core : ∃ o, Core cfg b t o (s.queue.map Prod.fst ++ s.refs.map (fun x => x.1.toNat)) s.nodes
  refs : ∀ x ∈ s.refs, 0 ≤ x.1 ∧ ∃ r, s.nodes[x.1.toNat]? = some r ∧
    (prob cfg).explored r.height r.start ∧ x.2 = cfg.step r.work (cfg.remain r.start)
  seq : cfg.parallel = false → s.refs = []

theorem pos_cast {n p : Nat} (h : p < n) : pos n (p : Int) = some p := by
  unfold pos
  simp [h]

/-- `procResult` on a pending, explored node -/
theorem procResult_eq {cfg : Cfg X T A} {o : Nat → T} {p : Nat} {pend : List Nat} {s : St X T A} {r : Rec X T A} (h : Core cfg b t o (p :: pend) s.nodes)
    (hr : s.nodes[p]? = some r) (hx : (prob cfg).explored r.height r.start) (rem : Bool)
    (hrem : cfg.parallel = rem) :
    procResult cfg rem (p : Int) (cfg.step r.work (cfg.remain r.start)) s = .ok
      { nodes := afterNodes cfg s.nodes p r ((prob cfg).expand r.work)
        queue := stableSort Prod.snd (s.queue ++
          (List.range (cfg.step r.work (cfg.remain r.start)).next.length).map
            (fun i => (s.nodes.length + i, if i = 0 then 0 else 1)))
        refs := s.refs } := by
  have hp : p < s.nodes.length := (List.getElem?_eq_some_iff.1 hr).1
  obtain ⟨last, hlast, hid⟩ := h.lastId
  obtain ⟨hc0, hh0, ht0⟩ := h.fresh p List.mem_cons_self r hr
  unfold procResult
  rw [pos_cast hp, hlast]
  simp only [hr]
  have henq : cfg.enqueues r.height = true := by
    unfold Cfg.enqueues
    split
    · rename_i m _ hm
      have := hx.1 m hm
      simp; omega
    · rfl
  have hhits : cfg.finalHits rem r.hits (cfg.step r.work (cfg.remain r.start)).hits =
      ((prob cfg).expand r.work).hits := by
    subst hrem
    unfold Cfg.finalHits
    cases hk : cfg.kind <;> cases hpar : cfg.parallel <;>
      simp_all [prob, problem, dropHits, Cfg.remain, Rec.work]
  simp only [henq, if_true]
  rw [hhits, hid]
  rfl

theorem queue_perm {n : Nat} {k : Nat} (q : List (Nat × Nat)) :
    ((stableSort Prod.snd (q ++ (List.range k).map (fun i => (n + i, if i = 0 then 0 else 1)))).map Prod.fst).Perm
      (q.map Prod.fst ++ (List.range k).map (n + ·)) := by
  refine ((stableSort_perm _ _).map _).trans ?_
  rw [List.map_append, List.map_map]
  exact List.Perm.refl _

theorem expand_next {cfg : Cfg X T A} (r : Rec X T A) :
    ((prob cfg).expand r.work).next = (cfg.step r.work (cfg.remain r.start)).next := rfl

/-- the refs clause survives processing of another node -/
theorem refs_keep {cfg : Cfg X T A} {o : Nat → T} {p : Nat} {pend : List Nat} {nodes : List (Rec X T A)} {r : Rec X T A}
    (h : Core cfg b t o (p :: pend) nodes) (res : Result X T A) (x : Int × Result X T A)
    (hx : 0 ≤ x.1 ∧ ∃ r, nodes[x.1.toNat]? = some r ∧
      (prob cfg).explored r.height r.start ∧ x.2 = cfg.step r.work (cfg.remain r.start))
    (hm : x.1.toNat ∈ pend) :
    0 ≤ x.1 ∧ ∃ r', (afterNodes cfg nodes p r res)[x.1.toNat]? = some r' ∧
      (prob cfg).explored r'.height r'.start ∧ x.2 = cfg.step r'.work (cfg.remain r'.start) := by
  obtain ⟨h0, rx, h1, h2, h3⟩ := hx
  have hnd := List.nodup_cons.1 h.nodup
  refine ⟨h0, rx, ?_, h2, h3⟩
  rw [afterNodes_lt (p := p) (List.getElem?_eq_some_iff.1 h1).1 (fun e => hnd.1 (by rw [← e]; exact hm))]
  exact h1

/-- the state reached by processing node `p` (already removed from queue and refs) -/
theorem inv_proc {cfg : Cfg X T A} {o : Nat → T} {p : Nat} {s : St X T A} {r : Rec X T A}
    (h : Core cfg b t o (p :: (s.queue.map Prod.fst ++ s.refs.map (fun x => x.1.toNat))) s.nodes)
    (hrefs : ∀ x ∈ s.refs, 0 ≤ x.1 ∧ ∃ r, s.nodes[x.1.toNat]? = some r ∧
      (prob cfg).explored r.height r.start ∧ x.2 = cfg.step r.work (cfg.remain r.start))
    (hseq : cfg.parallel = false → s.refs = [])
    (hr : s.nodes[p]? = some r) (hx : (prob cfg).explored r.height r.start) :
    ∃ s', procResult cfg cfg.parallel (p : Int) (cfg.step r.work (cfg.remain r.start)) s = .ok s' ∧ Inv cfg b t s' ∧
      s'.refs = s.refs ∧
      s'.nodes = afterNodes cfg s.nodes p r ((prob cfg).expand r.work) ∧
      (s'.queue.map Prod.fst).Perm (s.queue.map Prod.fst ++
        (List.range ((prob cfg).expand r.work).next.length).map (s.nodes.length + ·)) := by
  refine ⟨_, procResult_eq h hr hx _ rfl, ?_, rfl, rfl, queue_perm _⟩
  have hcore := h.proc hr hx ((prob cfg).expand r.work) rfl
  refine ⟨⟨_, hcore.perm ?_⟩, ?_, ?_⟩
  · rw [expand_next]
    have hq := queue_perm (n := s.nodes.length) (k := (cfg.step r.work (cfg.remain r.start)).next.length) s.queue
    refine List.Perm.trans ?_ (List.Perm.append_right _ hq.symm)
    rw [List.append_assoc, List.append_assoc]
    exact List.Perm.append_left _ List.perm_append_comm
  · intro x hx'
    refine refs_keep h _ x (hrefs x hx') ?_
    exact List.mem_append_right _ (List.mem_map.2 ⟨x, hx', rfl⟩)
  · exact hseq

theorem explored_of {cfg : Cfg X T A} {h : Nat} {st : ℚ} (h1 : ¬ cfg.tooDeep h = true)
    (h2 : ¬ cfg.remain st ≤ 0) : (prob cfg).explored h st :=
  ⟨tooDeep_eq_false.1 (by simpa using h1), not_le.1 h2⟩

theorem perm_eraseIdx {α} (l : List α) (k : Nat) (a : α) (h : l[k]? = some a) : l.Perm (a :: l.eraseIdx k) := by
  obtain ⟨hk, rfl⟩ := List.getElem?_eq_some_iff.1 h
  exact (List.getElem_cons_eraseIdx_perm hk).symm

theorem inv_wait {cfg : Cfg X T A} {s : St X T A} (h : Inv cfg b t s) (hne : s.refs ≠ []) (pick : Nat) :
    ∃ x s' r, x ∈ s.refs ∧ wait cfg pick s = .ok s' ∧ Inv cfg b t s' ∧
      s.nodes[x.1.toNat]? = some r ∧ (prob cfg).explored r.height r.start ∧
      s.refs.Perm (x :: s'.refs) ∧
      s'.nodes = afterNodes cfg s.nodes x.1.toNat r ((prob cfg).expand r.work) ∧
      (s'.queue.map Prod.fst).Perm (s.queue.map Prod.fst ++
        (List.range ((prob cfg).expand r.work).next.length).map (s.nodes.length + ·)) := by
  have hk : pick % s.refs.length < s.refs.length := Nat.mod_lt _ (List.length_pos_iff.2 hne)
  obtain ⟨⟨o, hcore⟩, hrefs, hseq⟩ := h
  have hpar : cfg.parallel = true := by
    cases hp : cfg.parallel with
    | false => exact absurd (hseq hp) hne
    | true => rfl
  set k := pick % s.refs.length with hkdef
  have hx : s.refs[k]? = some s.refs[k] := by simp [hk]
  have hperm := perm_eraseIdx _ _ _ hx
  obtain ⟨h0, r, h1, h2, h3⟩ := hrefs _ (List.getElem_mem hk)
  unfold wait
  rw [← hkdef, hx]
  generalize s.refs[k] = x at hx hperm h0 h1 h2 h3 ⊢
  obtain ⟨id, res⟩ := x
  dsimp only at h0 h1 h2 h3 ⊢
  have hid : (id : Int) = (id.toNat : Int) := by omega
  have hcore' : Core cfg b t o (id.toNat :: (s.queue.map Prod.fst ++
      (s.refs.eraseIdx k).map (fun x => x.1.toNat))) s.nodes := by
    refine hcore.perm ?_
    refine (List.Perm.append_left _ (hperm.map (fun x => x.1.toNat))).trans ?_
    exact List.perm_middle
  have key := inv_proc (s := { s with refs := s.refs.eraseIdx k }) hcore'
    (fun x hx => hrefs x (List.mem_of_mem_eraseIdx hx)) (by rw [hpar]; intro h; cases h) h1 h2
  obtain ⟨s', e1, e2, e3, e4, e5⟩ := key
  refine ⟨(id, res), s', r, hperm.mem_iff.2 List.mem_cons_self, ?_, e2, h1, h2, ?_, e4, e5⟩
  · rw [hpar, ← hid, ← h3] at e1
    exact e1
  · rw [e3]; exact hperm

/-- What one loop iteration can do, in terms of sets of pending nodes. -/
inductive Move (cfg : Cfg X T A) : St X T A → St X T A → Prop
  | skip {s s' : St X T A} {p : Nat} : s.queue.map Prod.fst = p :: s'.queue.map Prod.fst → s'.refs = s.refs → s'.nodes = s.nodes →
      Move cfg s s'
  | submit {s s' : St X T A} {p : Nat} {r : Result X T A} : s.queue.map Prod.fst = p :: s'.queue.map Prod.fst →
      s'.refs = s.refs ++ [((p : Int), r)] → s'.nodes = s.nodes → Move cfg s s'
  | seq {s s' : St X T A} {p : Nat} {q : List Nat} {r : Rec X T A} : s.queue.map Prod.fst = p :: q → s'.refs = s.refs →
      s.nodes[p]? = some r → (prob cfg).explored r.height r.start →
      s'.nodes = afterNodes cfg s.nodes p r ((prob cfg).expand r.work) →
      (s'.queue.map Prod.fst).Perm (q ++
        (List.range ((prob cfg).expand r.work).next.length).map (s.nodes.length + ·)) → Move cfg s s'
  | wait {s s' : St X T A} {x : Int × Result X T A} {r : Rec X T A} : x ∈ s.refs → 0 ≤ x.1 → s.nodes[x.1.toNat]? = some r → (prob cfg).explored r.height r.start →
      s.refs.Perm (x :: s'.refs) →
      s'.nodes = afterNodes cfg s.nodes x.1.toNat r ((prob cfg).expand r.work) →
      (s'.queue.map Prod.fst).Perm (s.queue.map Prod.fst ++
        (List.range ((prob cfg).expand r.work).next.length).map (s.nodes.length + ·)) → Move cfg s s'

theorem move_wait {cfg : Cfg X T A} {s : St X T A} (h : Inv cfg b t s) (hne : s.refs ≠ []) (pick : Nat) :
    ∃ s', Engine.wait cfg pick s = .ok s' ∧ Inv cfg b t s' ∧ Move cfg s s' := by
  obtain ⟨x, s', r, hx, hw, hi, h1, h2, h3, h4, h5⟩ := inv_wait h hne pick
  exact ⟨s', hw, hi, .wait hx (h.refs x hx).1 h1 h2 h3 h4 h5⟩

/-- A loop iteration either ends the loop with nothing left, or makes one or two moves; the invariant is kept and no
exception is raised. -/
theorem loopStep_spec {cfg : Cfg X T A} (ha : 0 < cfg.ahead) {s : St X T A} (h : Inv cfg b t s) (pick : Nat) :
    (s.queue = [] ∧ s.refs = [] ∧ loopStep cfg pick s = .ok none) ∨
    ∃ s', loopStep cfg pick s = .ok (some s') ∧ Inv cfg b t s' ∧
      (Move cfg s s' ∨ ∃ s1, Inv cfg b t s1 ∧ Move cfg s s1 ∧ Move cfg s1 s') := by
  unfold loopStep
  cases hq : s.queue with
  | nil =>
    by_cases hr : s.refs = []
    · left; simp [hr]
    · right
      obtain ⟨s', hw, hi, hm⟩ := move_wait h hr pick
      refine ⟨s', ?_, hi, Or.inl hm⟩
      simp [hr, hw, Except.map]
  | cons e q =>
    obtain ⟨p, later⟩ := e
    right
    obtain ⟨⟨o, hcore⟩, hrefs, hseq⟩ := h
    rw [hq] at hcore
    simp only [List.map_cons, List.cons_append] at hcore
    have hpl : p < s.nodes.length := hcore.lt p List.mem_cons_self
    obtain ⟨r, hr⟩ : ∃ r, s.nodes[p]? = some r := ⟨s.nodes[p], by simp [hpl]⟩
    have hid : r.id = (p : Int) := hcore.ids p r hr
    simp only [hr]
    have skipcase : ¬ (prob cfg).explored r.height r.start →
        Inv cfg b t { s with queue := q } ∧ Move cfg s { s with queue := q } := by
      intro hx
      refine ⟨⟨⟨o, hcore.skip hr hx⟩, hrefs, hseq⟩, ?_⟩
      exact .skip (p := p) (by simp [hq]) rfl rfl
    by_cases hd : cfg.tooDeep r.height = true
    · simp only [hd, if_true]
      have := skipcase (fun hx => tooDeep_eq_true hd hx.1)
      exact ⟨_, rfl, this.1, Or.inl this.2⟩
    · simp only [hd]
      by_cases ht : cfg.remain r.start ≤ 0
      · have := skipcase (fun hx => absurd hx.2 (not_lt.2 ht))
        refine ⟨{ s with queue := q }, ?_, this.1, Or.inl this.2⟩
        simp [ht]
      · have hx : (prob cfg).explored r.height r.start := explored_of hd ht
        simp only [ht, if_false]
        cases hpar : cfg.parallel with
        | true =>
          simp only [if_true, hid]
          set s1 : St X T A := { s with queue := q, refs := s.refs ++
            [((p : Int), cfg.step r.work (cfg.remain r.start))] } with hs1
          have hi1 : Inv cfg b t s1 := by
            refine ⟨⟨o, hcore.perm ?_⟩, ?_, ?_⟩
            · simp only [hs1, List.map_append, List.map_cons, List.map_nil, Int.toNat_natCast]
              rw [← List.append_assoc]
              exact (List.perm_append_singleton p _).symm
            · intro x hxm
              rcases List.mem_append.1 hxm with hxm | hxm
              · exact hrefs x hxm
              · simp only [List.mem_singleton] at hxm
                subst hxm
                exact ⟨by simp, r, by simpa using hr, hx, rfl⟩
            · intro hf; rw [hpar] at hf; cases hf
          have hm1 : Move cfg s s1 := .submit (p := p) (r := cfg.step r.work (cfg.remain r.start))
            (by simp [hq, hs1]) rfl rfl
          by_cases hw : cfg.ahead ≤ s1.refs.length
          · have hne : s1.refs ≠ [] := by simp [hs1]
            obtain ⟨s', hw', hi', hm'⟩ := move_wait hi1 hne pick
            refine ⟨s', ?_, hi', Or.inr ⟨s1, hi1, hm1, hm'⟩⟩
            show (if cfg.ahead ≤ s1.refs.length then (Engine.wait cfg pick s1).map some else .ok (some s1)) = _
            rw [if_pos hw, hw']; rfl
          · refine ⟨s1, ?_, hi1, Or.inl hm1⟩
            show (if cfg.ahead ≤ s1.refs.length then (Engine.wait cfg pick s1).map some else .ok (some s1)) = _
            rw [if_neg hw]
        | false =>
          have hsr := hseq hpar
          have key := inv_proc (s := { s with queue := q }) hcore hrefs hseq hr hx
          obtain ⟨s', e1, e2, e3, e4, e5⟩ := key
          rw [hpar] at e1
          refine ⟨s', ?_, e2, Or.inl (.seq (p := p) (q := q.map Prod.fst) (r := r) (by simp [hq]) e3 hr hx e4 e5)⟩
          simp only [Bool.false_eq_true, if_false, hid, e1]
          have : ¬ cfg.ahead ≤ s'.refs.length := by rw [e3]; simp [hsr]; omega
          simp [this]

theorem inv_init (cfg : Cfg X T A) (b : X) (t : T) : Inv cfg b t (St.init cfg b t) := by
  refine ⟨⟨fun _ => t, ?_⟩, ?_, ?_⟩
  · refine ⟨?_, ?_, ?_, ?_, ?_, ?_, ?_, ?_, ⟨⟨0, 0, cfg.roundN 0, b, t, cfg.noHits, []⟩, rfl, rfl, rfl, rfl, rfl⟩⟩ <;> simp only [St.init]
    · intro p r h
      cases p with
      | zero => simp at h; subst h; rfl
      | succ p => simp at h
    · simp
    · simp
    · simp
    · intro p hp r hr
      simp at hp; subst hp; simp at hr; subst hr; exact ⟨rfl, rfl, rfl⟩
    · intro p hp r hr
      cases p with
      | zero => simp at hp
      | succ p => simp at hr
    · simp
    · intro p r hr
      cases p with
      | zero => simp at hr; subst hr; simp
      | succ p => simp at hr
  · simp [St.init]
  · simp [St.init]

/-! ### runs -/

theorem run_spec {cfg : Cfg X T A} (ha : 0 < cfg.ahead) (picks : List Nat) {s : St X T A} (h : Inv cfg b t s) :
    ∃ s' fin, run cfg picks s = .ok (s', fin) ∧ Inv cfg b t s' ∧ (fin = true → s'.queue = [] ∧ s'.refs = []) := by
  induction picks generalizing s with
  | nil => exact ⟨s, false, rfl, h, by intro h; cases h⟩
  | cons pick rest ih =>
    unfold run
    rcases loopStep_spec ha h pick with ⟨h1, h2, h3⟩ | ⟨s', h1, h2, _⟩
    · rw [h3]; exact ⟨s, true, rfl, h, fun _ => ⟨h1, h2⟩⟩
    · rw [h1]; exact ih h2

/-! ### extracting the tree -/

/-- When nothing is pending every object denotes a tree, and it is the specified exploration of its contents. -/
theorem denotes_of_core {cfg : Cfg X T A} {o : Nat → T} {nodes : List (Rec X T A)} (h : Core cfg b t o [] nodes) :
    ∀ (n p : Nat) (r : Rec X T A), nodes.length - p ≤ n → nodes[p]? = some r →
      ∃ tr, Denotes nodes p tr ∧ Explores (prob cfg) r.height r.start r.body (o p) (tr.map Label.ofRec) := by
  intro n
  induction n with
  | zero =>
    intro p r hn hr
    have := (List.getElem?_eq_some_iff.1 hr).1
    omega
  | succ n ih =>
    intro p r hn hr
    have hpl := (List.getElem?_eq_some_iff.1 hr).1
    have hgt := h.kidsGt p r hr
    rcases h.done p (by simp) r hr with ⟨hx, hc, hh, ht⟩ | ⟨hx, ht, hh, hk⟩
    · refine ⟨.node r [], .mk hr (by rw [hc]; exact .nil), ?_⟩
      have := Explores.leaf (P := prob cfg) (h := r.height) (st := r.start) (b := r.body) (tr := o p) hx
      have e : (prob cfg).noHits = cfg.noHits := rfl
      simpa [RTree.map, RTree.mapL, Label.ofRec, hh, ht, e] using this
    · have key : ∀ (qs : List Nat) (cs : List (Child X T)), (∀ q ∈ qs, p < q ∧ q < nodes.length) →
          KidsOK cfg o nodes r.height qs cs →
          ∃ ts, DenotesAll nodes qs ts ∧ ExploresAll (prob cfg) (r.height + 1) cs (RTree.mapL Label.ofRec ts) := by
        intro qs cs hq hk
        unfold KidsOK at hk
        induction hk with
        | nil => exact ⟨[], .nil, .nil⟩
        | cons h1 h2 ih2 =>
          rename_i q c qs cs
          obtain ⟨rq, e0, e1, e2, e3, e4⟩ := h1
          obtain ⟨ts, d1, d2⟩ := ih2 (fun q hq' => hq q (List.mem_cons_of_mem _ hq'))
          have hb := hq q List.mem_cons_self
          obtain ⟨tq, d3, d4⟩ := ih q rq (by omega) e0
          refine ⟨tq :: ts, .cons d3 d1, .cons ?_ d2⟩
          rw [e1, e2, e3, e4] at d4
          exact d4
      obtain ⟨ts, d1, d2⟩ := key _ _ hgt hk
      refine ⟨.node r ts, .mk hr d1, ?_⟩
      have := Explores.node (P := prob cfg) (h := r.height) (st := r.start) (b := r.body) (tr := o p) hx d2
      simpa [RTree.map, Label.ofRec, ← ht, ← hh] using this

mutual
/-- positions of the heap objects of a denoted tree, in preorder -/
theorem flatten_perm {nodes : List (Rec X T A)} {p : Nat} {tr : RTree (Rec X T A)}
    (hid : ∀ (p : Nat) (r : Rec X T A), nodes[p]? = some r → r.id = p)
    (h : Denotes nodes p tr) :
    (∀ r ∈ tr.flatten, nodes[r.id.toNat]? = some r) ∧
    (tr.flatten.map (fun r => r.id.toNat)).Perm (p :: tr.flatten.flatMap Rec.child) := by
  cases h with
  | mk hr hk =>
    rename_i r ts
    obtain ⟨h1, h2⟩ := flattenL_perm hid hk
    have e := hid p r hr
    refine ⟨?_, ?_⟩
    · intro r' hr'
      simp only [RTree.flatten, List.mem_cons] at hr'
      rcases hr' with rfl | hr'
      · rw [e]; simpa using hr
      · exact h1 r' hr'
    · simp only [RTree.flatten, List.map_cons, List.flatMap_cons, e, Int.toNat_natCast]
      exact List.Perm.cons _ h2
theorem flattenL_perm {nodes : List (Rec X T A)} {ps : List Nat} {ts : List (RTree (Rec X T A))}
    (hid : ∀ (p : Nat) (r : Rec X T A), nodes[p]? = some r → r.id = p)
    (h : DenotesAll nodes ps ts) :
    (∀ r ∈ RTree.flattenL ts, nodes[r.id.toNat]? = some r) ∧
    ((RTree.flattenL ts).map (fun r => r.id.toNat)).Perm (ps ++ (RTree.flattenL ts).flatMap Rec.child) := by
  cases h with
  | nil => simp [RTree.flattenL]
  | cons h1 h2 =>
    rename_i p ps t ts
    obtain ⟨a1, a2⟩ := flatten_perm hid h1
    obtain ⟨b1, b2⟩ := flattenL_perm hid h2
    refine ⟨?_, ?_⟩
    · intro r hr
      simp only [RTree.flattenL, List.mem_append] at hr
      rcases hr with hr | hr
      · exact a1 r hr
      · exact b1 r hr
    · simp only [RTree.flattenL, List.map_append, List.flatMap_append, List.cons_append]
      refine (List.Perm.append a2 b2).trans ?_
      simp only [List.cons_append]
      refine List.Perm.cons _ ?_
      rw [← List.append_assoc, ← List.append_assoc]
      exact List.Perm.append_right _ List.perm_append_comm
end

theorem count_flatMap_map (l : List Nat) (f : Nat → List Nat) (q p0 : Nat)
    (h1 : ∀ p, p ≠ p0 → (f p).count q = 0) (h2 : (f p0).count q = 1) :
    (l.flatMap f).count q = l.count p0 := by
  induction l with
  | nil => rfl
  | cons a l ih =>
    rw [List.flatMap_cons, List.count_append, ih, List.count_cons]
    by_cases ha : a = p0
    · subst ha; simp [h2]; omega
    · simp [h1 a ha, ha]

/-- number of parents of a node: exactly one for every non-root -/
theorem unique_parent {cfg : Cfg X T A} {o : Nat → T} {pend : List Nat} {nodes : List (Rec X T A)}
    (h : Core cfg b t o pend nodes) (q : Nat) (h0 : 0 < q) (hq : q < nodes.length) :
    ∃ p0, p0 < q ∧ (∀ p r, nodes[p]? = some r → r.child.count q = if p = p0 then 1 else 0) ∧
      p0 < nodes.length := by
  have hcount : (nodes.flatMap Rec.child).count q = 1 := by
    rw [h.kidsPerm.count_eq]
    apply List.count_eq_one_of_mem List.nodup_range'
    rw [List.mem_range'_1]; omega
  have hm : q ∈ nodes.flatMap Rec.child := List.count_pos_iff.1 (by omega)
  obtain ⟨r0, hr0, hq0⟩ := List.mem_flatMap.1 hm
  obtain ⟨p0, hp0, hp0'⟩ := List.getElem_of_mem hr0
  have hn0 : nodes[p0]? = some r0 := by rw [← hp0']; simp [hp0]
  refine ⟨p0, (h.kidsGt p0 r0 hn0 q hq0).1, ?_, hp0⟩
  have hsplit : ∀ (l : List (Rec X T A)) (k : Nat) (r : Rec X T A), l[k]? = some r →
      (l.flatMap Rec.child).count q = r.child.count q + ((l.eraseIdx k).flatMap Rec.child).count q := by
    intro l k r hk
    have := ((perm_eraseIdx l k r hk).flatMap_right Rec.child).count_eq q
    rw [this, List.flatMap_cons, List.count_append]
  intro p r hr
  have hpos0 : 0 < r0.child.count q := List.count_pos_iff.2 hq0
  by_cases hp : p = p0
  · subst hp
    rw [hn0] at hr; cases hr
    have := hsplit nodes p r0 hn0
    simp; omega
  · simp only [hp, if_false]
    by_contra hne
    have hmem : r ∈ nodes.eraseIdx p0 := by
      rw [List.mem_eraseIdx_iff_getElem?]
      exact ⟨p, hp, hr⟩
    have h1 := hsplit nodes p0 r0 hn0
    have h2 : q ∈ (nodes.eraseIdx p0).flatMap Rec.child :=
      List.mem_flatMap.2 ⟨r, hmem, List.count_pos_iff.1 (by omega)⟩
    have h3 : 0 < ((nodes.eraseIdx p0).flatMap Rec.child).count q := List.count_pos_iff.2 h2
    omega

/-- The objects of the tree at the root are all heap objects, each once. -/
theorem flatten_ids {cfg : Cfg X T A} {o : Nat → T} {pend : List Nat} {nodes : List (Rec X T A)}
    (h : Core cfg b t o pend nodes) {tr : RTree (Rec X T A)} (hd : Denotes nodes 0 tr) :
    (tr.flatten.map (fun r => r.id.toNat)).Perm (List.range nodes.length) := by
  obtain ⟨h1, h2⟩ := flatten_perm h.ids hd
  set l := tr.flatten.map (fun r => r.id.toNat) with hl
  have hn0 : 0 < nodes.length := List.length_pos_iff.2 h.ne
  let f : Nat → List Nat := fun p => match nodes[p]? with
    | some r => r.child
    | none => []
  have hfm : tr.flatten.flatMap Rec.child = l.flatMap f := by
    rw [hl, List.flatMap_map]
    apply List.flatMap_congr
    intro r hr
    simp [f, h1 r hr]
  rw [hfm] at h2
  have hlt : ∀ p ∈ l, p < nodes.length := by
    intro p hp
    rw [hl, List.mem_map] at hp
    obtain ⟨r, hr, rfl⟩ := hp
    exact (List.getElem?_eq_some_iff.1 (h1 r hr)).1
  have hcount : ∀ q, q < nodes.length → l.count q = 1 := by
    intro q
    induction q using Nat.strong_induction_on with
    | _ q ih =>
      intro hq
      rw [h2.count_eq, List.count_cons]
      by_cases hq0 : q = 0
      · subst hq0
        have : (l.flatMap f).count 0 = 0 := by
          rw [List.count_eq_zero]
          intro hm
          obtain ⟨p, hp, hpq⟩ := List.mem_flatMap.1 hm
          have hpl := hlt p hp
          simp only [f] at hpq
          rw [List.getElem?_eq_getElem hpl] at hpq
          have := h.kidsGt p _ (List.getElem?_eq_getElem hpl) 0 hpq
          omega
        simp [this]
      · obtain ⟨p0, hp0, hcnt, hp0l⟩ := unique_parent h q (by omega) hq
        have h3 := count_flatMap_map l f q p0 (by
          intro p hp
          simp only [f]
          cases hn : nodes[p]? with
          | none => simp
          | some r => simpa [hp] using hcnt p r hn) (by
          simp only [f]
          rw [List.getElem?_eq_getElem hp0l]
          simpa using hcnt p0 _ (List.getElem?_eq_getElem hp0l))
        rw [h3, ih p0 hp0 hp0l]
        have : ¬ 0 = q := fun e => hq0 e.symm
        simp [this]
  rw [List.perm_iff_count]
  intro q
  by_cases hq : q < nodes.length
  · rw [hcount q hq, List.count_eq_one_of_mem List.nodup_range (List.mem_range.2 hq)]
  · rw [List.count_eq_zero.2 (fun hm => hq (hlt q hm)), List.count_eq_zero.2 (fun hm => hq (List.mem_range.1 hm))]

/-! ### determinism of the specification -/

mutual
theorem explores_det {P : Problem X T A} {h : Nat} {st : ℚ} {b : X} {tr : T} {t1 t2 : RTree (Label X T A)}
    (h1 : Explores P h st b tr t1) (h2 : Explores P h st b tr t2) : t1 = t2 := by
  cases h1 with
  | leaf hx => cases h2 with
    | leaf _ => rfl
    | node hx' _ => exact absurd hx' hx
  | node hx hk => cases h2 with
    | leaf hx' => exact absurd hx hx'
    | node _ hk' => rw [exploresAll_det hk hk']
theorem exploresAll_det {P : Problem X T A} {h : Nat} {cs : List (Child X T)} {t1 t2 : List (RTree (Label X T A))}
    (h1 : ExploresAll P h cs t1) (h2 : ExploresAll P h cs t2) : t1 = t2 := by
  cases h1 with
  | nil => cases h2; rfl
  | cons a b => cases h2 with
    | cons a' b' => rw [explores_det a a', exploresAll_det b b']
end

/-! ### termination -/

mutual
def tsize {D : Type} : RTree D → Nat
  | .node _ ts => 1 + tsizeL ts
def tsizeL {D : Type} : List (RTree D) → Nat
  | [] => 0
  | t :: ts => tsize t + tsizeL ts
end

open Classical in
/-- size of the exploration of a node, 0 if infinite -/
noncomputable def esize (P : Problem X T A) (h : Nat) (st : ℚ) (b : X) (tr : T) : Nat :=
  if hx : ∃ t, Explores P h st b tr t then tsize hx.choose else 0

theorem esize_eq {P : Problem X T A} {h : Nat} {st : ℚ} {b : X} {tr : T} {t : RTree (Label X T A)}
    (hx : Explores P h st b tr t) : esize P h st b tr = tsize t := by
  unfold esize
  have he : ∃ t, Explores P h st b tr t := ⟨t, hx⟩
  rw [dif_pos he, explores_det he.choose_spec hx]

/-- size of the exploration of heap object `p` -/
noncomputable def psize (cfg : Cfg X T A) (nodes : List (Rec X T A)) (p : Nat) : Nat :=
  match nodes[p]? with
  | some r => esize (prob cfg) r.height r.start r.body r.trace
  | none => 0

/-- every pending object has a finite exploration -/
def Fin (cfg : Cfg X T A) (nodes : List (Rec X T A)) (p : Nat) : Prop :=
  ∃ r t, nodes[p]? = some r ∧ Explores (prob cfg) r.height r.start r.body r.trace t

def pendOf (s : St X T A) : List Nat := s.queue.map Prod.fst ++ s.refs.map (fun x => x.1.toNat)

noncomputable def measure (cfg : Cfg X T A) (s : St X T A) : Nat :=
  ((s.queue.map Prod.fst).map (fun p => 2 * psize cfg s.nodes p)).sum +
  ((s.refs.map (fun x => x.1.toNat)).map (fun p => 2 * psize cfg s.nodes p - 1)).sum

theorem tsize_pos {D : Type} (t : RTree D) : 0 < tsize t := by
  cases t; simp only [tsize]; omega

theorem psize_pos {cfg : Cfg X T A} {nodes : List (Rec X T A)} {p : Nat} (h : Fin cfg nodes p) :
    0 < psize cfg nodes p := by
  obtain ⟨r, t, hr, ht⟩ := h
  simp only [psize, hr, esize_eq ht]
  exact tsize_pos t

theorem psize_keep {cfg : Cfg X T A} {nodes : List (Rec X T A)} {p : Nat} {r : Rec X T A} {res : Result X T A} {q : Nat}
    (hq : q < nodes.length) (hne : q ≠ p) : psize cfg (afterNodes cfg nodes p r res) q = psize cfg nodes q := by
  simp only [psize, afterNodes_lt hq hne]

theorem exploresAll_kids {cfg : Cfg X T A} {h : Nat} {cs : List (Child X T)} {ts : List (RTree (Label X T A))}
    (hx : ExploresAll (prob cfg) (h + 1) cs ts) :
    (cs.map (fun c => esize (prob cfg) (h + 1) (cfg.roundN c.start) c.body c.trace)).sum = tsizeL ts ∧
    ∀ c ∈ cs, ∃ t, Explores (prob cfg) (h + 1) (cfg.roundN c.start) c.body c.trace t := by
  generalize hh : h + 1 = h' at hx
  induction cs generalizing ts with
  | nil => cases hx; simp [tsizeL]
  | cons c cs ih =>
    cases hx with
    | cons h1 h2 =>
      obtain ⟨i1, i2⟩ := ih h2
      refine ⟨?_, ?_⟩
      · rw [List.map_cons, List.sum_cons, i1]
        simp only [tsizeL]
        rw [show cfg.roundN = (prob cfg).round from rfl, esize_eq (P := prob cfg) h1]
      · intro c' hc'
        rcases List.mem_cons.1 hc' with rfl | hc'
        · exact ⟨_, h1⟩
        · exact i2 c' hc'

/-- sizes of freshly created children add up to the size of the parent minus one -/
theorem psize_kids {cfg : Cfg X T A} {nodes : List (Rec X T A)} {p : Nat} {r : Rec X T A}
    (hr : nodes[p]? = some r) (hx : (prob cfg).explored r.height r.start) (hf : Fin cfg nodes p) :
    (((List.range ((prob cfg).expand r.work).next.length).map (nodes.length + ·)).map
      (fun q => 2 * psize cfg (afterNodes cfg nodes p r ((prob cfg).expand r.work)) q)).sum + 2 =
      2 * psize cfg nodes p ∧
    ∀ q ∈ (List.range ((prob cfg).expand r.work).next.length).map (nodes.length + ·),
      Fin cfg (afterNodes cfg nodes p r ((prob cfg).expand r.work)) q := by
  obtain ⟨r', t, hr', ht⟩ := hf
  rw [hr] at hr'; cases hr'
  simp only [psize, hr]
  rw [esize_eq ht]
  generalize hcs : (prob cfg).expand r.work = res
  cases ht with
  | leaf hn => exact absurd hx hn
  | node _ hk =>
    rename_i ts _
    change ExploresAll (prob cfg) (r.height + 1) ((prob cfg).expand r.work).next ts at hk
    rw [hcs] at hk
    obtain ⟨i1, i2⟩ := exploresAll_kids hk
    simp only [tsize]
    rw [← i1]
    constructor
    · rw [List.map_map]
      have : (List.range res.next.length).map ((fun q => 2 * match (afterNodes cfg nodes p r res)[q]? with
          | some r => esize (prob cfg) r.height r.start r.body r.trace
          | none => 0) ∘ (nodes.length + ·)) =
          res.next.map (fun c => 2 * esize (prob cfg) (r.height + 1) (cfg.roundN c.start) c.body c.trace) := by
        apply List.ext_getElem
        · simp
        · intro i h1 h2
          simp only [List.getElem_map, Function.comp, List.getElem_range]
          rw [afterNodes_ge (c := res.next[i]'(by simpa using h2)) (by simp)]
          rfl
      rw [this]
      have hs : ∀ l : List (Child X T), (l.map (fun c => 2 * esize (prob cfg) (r.height + 1) (cfg.roundN c.start) c.body c.trace)).sum =
          2 * (l.map (fun c => esize (prob cfg) (r.height + 1) (cfg.roundN c.start) c.body c.trace)).sum := by
        intro l
        induction l with
        | nil => rfl
        | cons a l ih => simp only [List.map_cons, List.sum_cons, ih]; omega
      rw [hs]; omega
    · intro q hq
      simp only [List.mem_map, List.mem_range] at hq
      obtain ⟨i, hi, rfl⟩ := hq
      obtain ⟨t', ht'⟩ := i2 _ (List.getElem_mem hi)
      refine ⟨_, t', afterNodes_ge (c := res.next[i]) (by simp), ?_⟩
      exact ht'

theorem Inv.nodup {cfg : Cfg X T A} {s : St X T A} (h : Inv cfg b t s) : (pendOf s).Nodup := by
  obtain ⟨o, hc⟩ := h.core
  exact hc.nodup

theorem Inv.lt {cfg : Cfg X T A} {s : St X T A} (h : Inv cfg b t s) : ∀ p ∈ pendOf s, p < s.nodes.length := by
  obtain ⟨o, hc⟩ := h.core
  exact hc.lt

theorem fin_keep {cfg : Cfg X T A} {nodes : List (Rec X T A)} {p : Nat} {r : Rec X T A} {res : Result X T A} {q : Nat}
    (hf : Fin cfg nodes q) (hne : q ≠ p) : Fin cfg (afterNodes cfg nodes p r res) q := by
  obtain ⟨r', t, hr', ht⟩ := hf
  exact ⟨r', t, by rw [afterNodes_lt (List.getElem?_eq_some_iff.1 hr').1 hne]; exact hr', ht⟩

theorem sum_keep {cfg : Cfg X T A} {nodes : List (Rec X T A)} {p : Nat} {r : Rec X T A} {res : Result X T A}
    (g : Nat → Nat) (l : List Nat) (h1 : ∀ q ∈ l, q < nodes.length) (h2 : ∀ q ∈ l, q ≠ p) :
    (l.map (fun q => g (psize cfg (afterNodes cfg nodes p r res) q))).sum = (l.map (fun q => g (psize cfg nodes q))).sum := by
  congr 1
  apply List.map_congr_left
  intro q hq
  rw [psize_keep (h1 q hq) (h2 q hq)]

theorem move_measure {cfg : Cfg X T A} {s s' : St X T A} (hi : Inv cfg b t s) (hm : Move cfg s s')
    (hf : ∀ p ∈ pendOf s, Fin cfg s.nodes p) :
    (∀ p ∈ pendOf s', Fin cfg s'.nodes p) ∧ measure cfg s' < measure cfg s := by
  have hnd := hi.nodup
  have hlt := hi.lt
  cases hm with
  | skip h1 h2 h3 =>
    rename_i p
    unfold pendOf measure at *
    rw [h2, h3]
    rw [h1] at hf ⊢
    refine ⟨fun q hq => hf q (List.mem_cons_of_mem _ hq), ?_⟩
    have := psize_pos (hf p (by simp))
    simp only [List.map_cons, List.sum_cons]
    omega
  | submit h1 h2 h3 =>
    rename_i p r
    unfold pendOf measure at *
    rw [h2, h3]
    rw [h1] at hf ⊢
    refine ⟨fun q hq => hf q ?_, ?_⟩
    · simp only [List.map_append, List.map_cons, List.map_nil, Int.toNat_natCast, List.mem_append,
        List.mem_cons, List.cons_append] at hq ⊢
      tauto
    · have := psize_pos (hf p (by simp))
      simp only [List.map_append, List.map_cons, List.map_nil, Int.toNat_natCast, List.sum_cons, List.sum_append,
        List.sum_nil]
      omega
  | seq h1 h2 hr hx h3 h4 =>
    rename_i p q r
    unfold pendOf at hf hnd hlt
    rw [h1] at hf hnd hlt
    simp only [List.cons_append] at hf hnd hlt
    obtain ⟨k1, k2⟩ := psize_kids hr hx (hf p (by simp))
    have hnd' := List.nodup_cons.1 hnd
    have hq1 : ∀ a ∈ q, a < s.nodes.length := fun a ha => hlt a (by simp [ha])
    have hq2 : ∀ a ∈ q, a ≠ p := fun a ha e => hnd'.1 (by simp [← e, ha])
    have hr1 : ∀ a ∈ s.refs.map (fun x => x.1.toNat), a < s.nodes.length :=
      fun a ha => hlt a (List.mem_cons_of_mem _ (List.mem_append_right _ ha))
    have hr2 : ∀ a ∈ s.refs.map (fun x => x.1.toNat), a ≠ p := fun a ha e => hnd'.1 (by
      rw [← e]; exact List.mem_append_right _ ha)
    constructor
    · intro a ha
      unfold pendOf at ha
      rw [h2, List.mem_append, h4.mem_iff, List.mem_append] at ha
      rw [h3]
      rcases ha with (ha | ha) | ha
      · exact fin_keep (hf a (by simp [ha])) (hq2 a ha)
      · exact k2 a ha
      · exact fin_keep (hf a (List.mem_cons_of_mem _ (List.mem_append_right _ ha))) (hr2 a ha)
    · unfold measure
      rw [h2, h3, (h4.map _).sum_eq, List.map_append, List.sum_append, h1]
      rw [sum_keep (fun x => 2 * x) q hq1 hq2, sum_keep (fun x => 2 * x - 1) _ hr1 hr2]
      simp only [List.map_cons, List.sum_cons]
      omega
  | wait hx0 hx1 hr hx h2 h3 h4 =>
    rename_i x r
    have hp := h2.map (fun x => x.1.toNat)
    rw [List.map_cons] at hp
    have hperm : (pendOf s).Perm (x.1.toNat :: (s.queue.map Prod.fst ++ s'.refs.map (fun x => x.1.toNat))) := by
      unfold pendOf
      exact (List.Perm.append_left _ hp).trans List.perm_middle
    have hf' : ∀ a ∈ x.1.toNat :: (s.queue.map Prod.fst ++ s'.refs.map (fun x => x.1.toNat)), Fin cfg s.nodes a :=
      fun a ha => hf a (hperm.mem_iff.2 ha)
    have hlt' : ∀ a ∈ x.1.toNat :: (s.queue.map Prod.fst ++ s'.refs.map (fun x => x.1.toNat)), a < s.nodes.length :=
      fun a ha => hlt a (hperm.mem_iff.2 ha)
    have hnd' := List.nodup_cons.1 (hperm.nodup_iff.1 hnd)
    obtain ⟨k1, k2⟩ := psize_kids hr hx (hf' _ List.mem_cons_self)
    have hq1 : ∀ a ∈ s.queue.map Prod.fst, a < s.nodes.length :=
      fun a ha => hlt' a (List.mem_cons_of_mem _ (List.mem_append_left _ ha))
    have hq2 : ∀ a ∈ s.queue.map Prod.fst, a ≠ x.1.toNat := fun a ha e => hnd'.1 (by
      rw [← e]; exact List.mem_append_left _ ha)
    have hr1 : ∀ a ∈ s'.refs.map (fun x => x.1.toNat), a < s.nodes.length :=
      fun a ha => hlt' a (List.mem_cons_of_mem _ (List.mem_append_right _ ha))
    have hr2 : ∀ a ∈ s'.refs.map (fun x => x.1.toNat), a ≠ x.1.toNat := fun a ha e => hnd'.1 (by
      rw [← e]; exact List.mem_append_right _ ha)
    have hpos := psize_pos (hf' _ List.mem_cons_self)
    constructor
    · intro a ha
      unfold pendOf at ha
      rw [List.mem_append, h4.mem_iff, List.mem_append] at ha
      rw [h3]
      rcases ha with (ha | ha) | ha
      · exact fin_keep (hf' a (List.mem_cons_of_mem _ (List.mem_append_left _ ha))) (hq2 a ha)
      · exact k2 a ha
      · exact fin_keep (hf' a (List.mem_cons_of_mem _ (List.mem_append_right _ ha))) (hr2 a ha)
    · unfold measure
      rw [h3, (h4.map _).sum_eq, List.map_append, List.sum_append, (hp.map _).sum_eq]
      rw [sum_keep (fun x => 2 * x) _ hq1 hq2, sum_keep (fun x => 2 * x - 1) _ hr1 hr2]
      simp only [List.map_cons, List.sum_cons]
      omega

theorem run_terminates {cfg : Cfg X T A} (ha : 0 < cfg.ahead) (picks : List Nat) {s : St X T A}
    (hi : Inv cfg b t s) (hf : ∀ p ∈ pendOf s, Fin cfg s.nodes p) (hl : measure cfg s < picks.length) :
    ∃ s', run cfg picks s = .ok (s', true) := by
  induction picks generalizing s with
  | nil => simp at hl
  | cons pick rest ih =>
    unfold run
    rcases loopStep_spec ha hi pick with ⟨h1, h2, h3⟩ | ⟨s', h1, h2, h3⟩
    · rw [h3]; exact ⟨s, rfl⟩
    · rw [h1]
      have key : (∀ p ∈ pendOf s', Fin cfg s'.nodes p) ∧ measure cfg s' < measure cfg s := by
        rcases h3 with h3 | ⟨s1, i1, m1, m2⟩
        · exact move_measure hi h3 hf
        · have a1 := move_measure hi m1 hf
          have a2 := move_measure i1 m2 a1.1
          exact ⟨a2.1, by omega⟩
      apply ih h2 key.1
      simp only [List.length_cons] at hl
      omega

/-- with a height limit every exploration is finite -/
theorem explores_exists {P : Problem X T A} (m : Nat) (hm : ∀ h st, P.explored h st → h + 1 < m) :
    ∀ (k h : Nat) (st : ℚ) (b : X) (tr : T), m - h ≤ k → ∃ t, Explores P h st b tr t := by
  intro k
  induction k with
  | zero =>
    intro h st b tr hk
    exact ⟨_, .leaf (fun hx => by have := hm h st hx; omega)⟩
  | succ k ih =>
    intro h st b tr hk
    by_cases hx : P.explored h st
    · have := hm h st hx
      have key : ∀ cs : List (Child X T), ∃ ts, ExploresAll P (h + 1) cs ts := by
        intro cs
        induction cs with
        | nil => exact ⟨[], .nil⟩
        | cons c cs ihc =>
          obtain ⟨ts, hts⟩ := ihc
          obtain ⟨t, ht⟩ := ih (h + 1) (P.round c.start) c.body c.trace (by omega)
          exact ⟨t :: ts, .cons ht hts⟩
      obtain ⟨ts, hts⟩ := key (P.expand ⟨h, st, b, tr⟩).next
      exact ⟨_, .node hx hts⟩
    · exact ⟨_, .leaf hx⟩

/-- subtree of an exploration is an exploration of a node that many levels deeper -/
theorem explores_below {P : Problem X T A} {tr0 u : RTree (Label X T A)} {k : Nat} (hb : RTree.Below tr0 u k) :
    ∀ {h : Nat} {st : ℚ} {b : X} {tr : T}, Explores P h st b tr tr0 →
      ∃ st' b' tr', Explores P (h + k) st' b' tr' u := by
  induction hb with
  | refl t => intro h st b tr hx; exact ⟨st, b, tr, hx⟩
  | step hmem hb ih =>
    rename_i d ts t u k
    intro h st b tr hx
    cases hx with
    | leaf _ => simp at hmem
    | node hx hk =>
      have : ∀ (cs : List (Child X T)) (ts : List (RTree (Label X T A))), ExploresAll P (h + 1) cs ts → t ∈ ts →
          ∃ st' b' tr', Explores P (h + 1) st' b' tr' t := by
        intro cs ts hk
        induction cs generalizing ts with
        | nil => cases hk; simp
        | cons c cs ihc =>
          cases hk with
          | cons a1 a2 =>
            intro hm
            rcases List.mem_cons.1 hm with rfl | hm
            · exact ⟨_, _, _, a1⟩
            · exact ihc _ a2 hm
      obtain ⟨st', b', tr', ht⟩ := this _ _ hk hmem
      obtain ⟨s2, b2, t2, h2⟩ := ih ht
      exact ⟨s2, b2, t2, by rw [show h + (k + 1) = h + 1 + k by omega]; exact h2⟩

mutual
theorem denotes_det {nodes : List (Rec X T A)} {p : Nat} {t1 t2 : RTree (Rec X T A)}
    (h1 : Denotes nodes p t1) (h2 : Denotes nodes p t2) : t1 = t2 := by
  cases h1 with
  | mk a b => cases h2 with
    | mk a' b' =>
      rw [a] at a'; cases a'
      rw [denotesAll_det b b']
theorem denotesAll_det {nodes : List (Rec X T A)} {ps : List Nat} {t1 t2 : List (RTree (Rec X T A))}
    (h1 : DenotesAll nodes ps t1) (h2 : DenotesAll nodes ps t2) : t1 = t2 := by
  cases h1 with
  | nil => cases h2; rfl
  | cons a b => cases h2 with
    | cons a' b' => rw [denotes_det a a', denotesAll_det b b']
end

mutual
theorem map_map {D E F : Type} (f : D → E) (g : E → F) (t : RTree D) : (t.map f).map g = t.map (fun d => g (f d)) := by
  cases t with
  | node d ts => simp only [RTree.map, mapL_mapL]
theorem mapL_mapL {D E F : Type} (f : D → E) (g : E → F) (ts : List (RTree D)) :
    RTree.mapL g (RTree.mapL f ts) = RTree.mapL (fun d => g (f d)) ts := by
  cases ts with
  | nil => rfl
  | cons t ts => simp only [RTree.mapL, map_map, mapL_mapL]
end

mutual
theorem explores_modHits {P P' : Problem X T A} (hx : ∀ h st, P.explored h st ↔ P'.explored h st)
    (he : ∀ w, (P.expand w).next = (P'.expand w).next ∧ (P.expand w).trace = (P'.expand w).trace)
    (hr : P.round = P'.round) {h : Nat} {st : ℚ} {b : X} {tr : T} {t t' : RTree (Label X T A)}
    (h1 : Explores P h st b tr t) (h2 : Explores P' h st b tr t') :
    t.map (fun l => (l.height, l.start, l.body, l.trace)) = t'.map (fun l => (l.height, l.start, l.body, l.trace)) := by
  cases h1 with
  | leaf hn => cases h2 with
    | leaf _ => simp [RTree.map, RTree.mapL]
    | node hn' _ => exact absurd ((hx _ _).2 hn') hn
  | node hn hk => cases h2 with
    | leaf hn' => exact absurd ((hx _ _).1 hn) hn'
    | node _ hk' =>
      rw [← (he _).1] at hk'
      simp only [RTree.map, exploresAll_modHits hx he hr hk hk', (he _).2]
theorem exploresAll_modHits {P P' : Problem X T A} (hx : ∀ h st, P.explored h st ↔ P'.explored h st)
    (he : ∀ w, (P.expand w).next = (P'.expand w).next ∧ (P.expand w).trace = (P'.expand w).trace)
    (hr : P.round = P'.round) {h : Nat} {cs : List (Child X T)} {t t' : List (RTree (Label X T A))}
    (h1 : ExploresAll P h cs t) (h2 : ExploresAll P' h cs t') :
    RTree.mapL (fun l => (l.height, l.start, l.body, l.trace)) t =
      RTree.mapL (fun l => (l.height, l.start, l.body, l.trace)) t' := by
  cases h1 with
  | nil => cases h2; rfl
  | cons a b => cases h2 with
    | cons a' b' =>
      rw [← hr] at a'
      simp only [RTree.mapL, explores_modHits hx he hr a a', exploresAll_modHits hx he hr b b']
end

theorem mem_mapL {D E : Type} (f : D → E) {t : RTree D} {ts : List (RTree D)} (h : t ∈ ts) :
    t.map f ∈ RTree.mapL f ts := by
  induction ts with
  | nil => simp at h
  | cons a ts ih =>
    rcases List.mem_cons.1 h with rfl | h
    · exact List.mem_cons_self
    · exact List.mem_cons_of_mem _ (ih h)

theorem below_map {D E : Type} (f : D → E) {t u : RTree D} {k : Nat} (h : RTree.Below t u k) :
    RTree.Below (t.map f) (u.map f) k := by
  induction h with
  | refl t => exact .refl _
  | step hm _ ih =>
    simp only [RTree.map]
    exact .step (mem_mapL f hm) ih

theorem explores_label {P : Problem X T A} {h : Nat} {st : ℚ} {b : X} {tr : T} {t : RTree (Label X T A)}
    (hx : Explores P h st b tr t) : t.label.height = h := by
  cases hx <;> rfl

theorem explores_start {P : Problem X T A} {h : Nat} {st : ℚ} {b : X} {tr : T} {t : RTree (Label X T A)}
    (hx : Explores P h st b tr t) : t.label.start = st ∧ t.label.body = b := by
  cases hx <;> exact ⟨rfl, rfl⟩

theorem exploresAll_contents {P : Problem X T A} {h : Nat} {cs : List (Child X T)} {ts : List (RTree (Label X T A))}
    (hx : ExploresAll P h cs ts) :
    ts.map (fun t => (t.label.start, t.label.body)) = cs.map (fun c => (P.round c.start, c.body)) := by
  induction cs generalizing ts with
  | nil => cases hx; rfl
  | cons c cs ih =>
    cases hx with
    | cons a b =>
      have := explores_start a
      simp only [List.map_cons, ih b, this.1, this.2]

theorem contents_mapL (ts : List (RTree (Rec X T A))) :
    (RTree.mapL Label.ofRec ts).map (fun t => (t.label.start, t.label.body)) =
      ts.map (fun t => (t.label.start, t.label.body)) := by
  induction ts with
  | nil => rfl
  | cons t ts ih =>
    cases t
    rw [RTree.mapL, List.map_cons, List.map_cons, ih]
    rfl

theorem explores_depth {P : Problem X T A} (m : Nat) (hm : ∀ h st, P.explored h st → h + 1 < m)
    {t u : RTree (Label X T A)} {k : Nat} (hb : RTree.Below t u k) :
    ∀ {h : Nat} {st : ℚ} {b : X} {tr : T}, Explores P h st b tr t → h < m → h + k < m := by
  induction hb with
  | refl t => intro h st b tr hx hl; simpa using hl
  | step hmem hb ih =>
    rename_i d ts t u k
    intro h st b tr hx hl
    have hb1 : RTree.Below (RTree.node d ts) t 1 := .step hmem (.refl _)
    obtain ⟨st', b', tr', ht⟩ := explores_below hb1 hx
    cases hx with
    | leaf _ => simp at hmem
    | node hx hk =>
      have := hm _ _ hx
      have := ih ht (by omega)
      omega

end Verif.Engine
