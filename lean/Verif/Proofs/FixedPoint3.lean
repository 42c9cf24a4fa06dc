import Verif.Proofs.FixedPoint2

/-! The collected rectangles as sets of points; the formula of the test. -/

set_option autoImplicit false
set_option linter.unusedSectionVars false

namespace Verif.Proofs.Fix

open Verif.Spec Verif.Fix Verif.Fix.Spec Verif.ATree

variable {K : Type} [Field K] [LinearOrder K] {agents : List String} {dim mdim : String → Nat}

/-- Number of rectangles selected in a node. -/
def count (agents : List String) (sel : Sel K) (n : FNode K) : Nat := (selP sel (rects n (agents.headD ""))).length

/-- The composed rectangles of a node. -/
def enc (agents : List String) (E : Dict String Enum) (sel : Sel K) (n : FNode K) : List (List K × List K) :=
  composed (count agents sel n) (agents.map (verts E sel n))

theorem count_eq {n : FNode K} (hn : NodeOk agents dim mdim n) (sel : Sel K) {a : String} (ha : a ∈ agents) :
    (selP sel (rects n a)).length = count agents sel n := by
  unfold count
  cases agents with
  | nil => simp at ha
  | cons b l => exact selP_map (hn.aligned a ha b (by simp))

theorem enc_later {E E' : Dict String Enum} (h : Later agents E E') {n : FNode K} (hn : ∀ a ∈ agents, Numbered E n a) (sel : Sel K) :
    enc agents E' sel n = enc agents E sel n := by
  unfold enc
  congr 1
  apply List.map_congr_left
  intro a ha
  unfold verts
  rw [nums_later h ha (hn a ha)]

theorem nodeStep_eq {n : FNode K} (hn : NodeOk agents dim mdim n) (hne : agents ≠ []) (hnd : agents.Nodup) (sel : Sel K) (E : Dict String Enum)
    (hE : EnumOk agents E) (acc : List (List (List K))) :
    nodeStep sel agents (E, acc) n = .ok (agents.foldl (enumStep n) E,
      acc ++ (if count agents sel n = 0 then [] else [flat (enc agents (agents.foldl (enumStep n) E) sel n)])) := by
  obtain ⟨h1, -⟩ := agentLoop hn sel agents E [] hnd (fun a ha => ha) hE
  unfold nodeStep
  rw [h1]
  show Except.map _ _ = _
  rw [List.nil_append]
  have hmap : (agents.map (fun a => flat (verts (agents.foldl (enumStep n) E) sel n a))) = (agents.map (verts (agents.foldl (enumStep n) E) sel n)).map flat := by
    rw [List.map_map]; rfl
  rw [hmap]
  have hlen : ∀ v ∈ agents.map (verts (agents.foldl (enumStep n) E) sel n), v.length = count agents sel n := by
    intro v hv
    obtain ⟨a, ha, rfl⟩ := List.mem_map.1 hv
    rw [← count_eq hn sel ha]
    unfold verts
    rw [List.length_map]
  by_cases h0 : count agents sel n = 0
  · rw [compose_zero _ (by rw [h0] at hlen; exact hlen), if_pos h0]
    show Except.ok _ = _
    rw [List.append_nil]; rfl
  · rw [compose_all (Nat.pos_of_ne_zero h0) _ (by simpa using hne) hlen, if_neg h0]
    rfl

def enumAll (agents : List String) (nodes : List (FNode K)) (E : Dict String Enum) : Dict String Enum := nodes.foldl (fun E n => agents.foldl (enumStep n) E) E

theorem nodes_eq (hne : agents ≠ []) (hnd : agents.Nodup) (sel : Sel K) : ∀ (nodes : List (FNode K)) (E : Dict String Enum) (acc : List (List (List K))),
    (∀ n ∈ nodes, NodeOk agents dim mdim n) → EnumOk agents E →
    nodes.foldlM (nodeStep sel agents) (E, acc) = .ok (enumAll agents nodes E,
      acc ++ nodes.flatMap (fun n => if count agents sel n = 0 then [] else [flat (enc agents (enumAll agents nodes E) sel n)])) ∧
    EnumOk agents (enumAll agents nodes E) ∧ Later agents E (enumAll agents nodes E) ∧ (∀ n ∈ nodes, ∀ a ∈ agents, Numbered (enumAll agents nodes E) n a) := by
  intro nodes
  induction nodes with
  | nil => intro E acc _ hE; exact ⟨by simp [pure, Except.pure, enumAll], hE, fun a _ m v _ h => h, by simp⟩
  | cons n nodes ih =>
    intro E acc hn hE
    have h1 := nodeStep_eq (hn n (by simp)) hne hnd sel E hE acc
    obtain ⟨-, g2, g3, g4, -⟩ := agentLoop (hn n (by simp)) sel agents E [] hnd (fun a ha => ha) hE
    obtain ⟨i1, i2, i3, i4⟩ := ih (agents.foldl (enumStep n) E)
      (acc ++ (if count agents sel n = 0 then [] else [flat (enc agents (agents.foldl (enumStep n) E) sel n)]))
      (fun m hm => hn m (List.mem_cons_of_mem _ hm)) g2
    have he : enumAll agents (n :: nodes) E = enumAll agents nodes (agents.foldl (enumStep n) E) := rfl
    rw [he]
    refine ⟨(foldlM_cons_ok _ _ _ _ _).2 ⟨_, h1, i1.trans ?_⟩, i2, g3.trans i3, ?_⟩
    · congr 2
      rw [List.flatMap_cons, List.append_assoc, enc_later i3 g4 sel]
    · intro m hm a ha
      rcases List.mem_cons.1 hm with rfl | hm
      · exact (g4 a ha).later i3 ha
      · exact i4 m hm a ha

/-! ### Formulas -/

def Box (q : List K × List K) (y : List K) : Prop := List.Forall₂ (fun (i : K × K) y => i.1 ≤ y ∧ y ≤ i.2) (q.1.zip q.2) y

theorem boxFm_ok {n : Nat} {lo hi : List K} (h1 : lo.length = n) (h2 : hi.length = n) : ∃ f, boxFm n lo hi = .ok f ∧
    ∀ p, f.Holds p ↔ Box (lo, hi) ((List.range n).map p) := by
  have key : ∀ m, m ≤ n → ∃ f : Fm K, (List.range m).foldlM (boxStep lo hi) Fm.tt = .ok f ∧ ∀ p : Nat → K, f.Holds p ↔ ∀ j (h : j < m) (hl : j < lo.length) (hh : j < hi.length), lo[j] ≤ p j ∧ p j ≤ hi[j] := by
    intro m
    induction m with
    | zero => intro _; exact ⟨.tt, rfl, fun p => by simp [Fm.Holds]⟩
    | succ m ih =>
      intro hm
      obtain ⟨f, hf, hp⟩ := ih (by omega)
      have e1 : lo[m]? = some lo[m] := List.getElem?_eq_getElem (by omega)
      have e2 : hi[m]? = some hi[m] := List.getElem?_eq_getElem (by omega)
      refine ⟨.and f (.and (.ge m lo[m]) (.le m hi[m])), ?_, ?_⟩
      · rw [List.range_succ, List.foldlM_append, hf]
        show (List.foldlM (boxStep lo hi) f [m]) = _
        refine (foldlM_cons_ok _ _ _ _ _).2 ⟨_, ?_, rfl⟩
        unfold boxStep
        rw [e1, e2]
      · intro p
        simp only [Fm.Holds, hp]
        constructor
        · rintro ⟨a, b⟩ j hj hl hh
          rcases Nat.lt_succ_iff_lt_or_eq.1 hj with hj | rfl
          · exact a j hj hl hh
          · exact b
        · intro a
          exact ⟨fun j hj hl hh => a j (by omega) hl hh, a m (by omega) (by omega) (by omega)⟩
  obtain ⟨f, hf, hp⟩ := key n le_rfl
  refine ⟨f, hf, ?_⟩
  intro p
  rw [hp]
  unfold Box
  rw [List.forall₂_iff_get]
  constructor
  · intro h
    refine ⟨by simp [h1, h2], ?_⟩
    intro i hi1 hi2
    have := h i (by simpa using hi2) (by simp at hi1; omega) (by simp at hi1; omega)
    simpa using this
  · rintro ⟨_, h⟩ j hj hl hh
    have := h j (by simp; omega) (by simpa using hj)
    simpa using this

theorem nodeFm_ok {n : Nat} (Q : List (List K × List K)) (hQ : ∀ q ∈ Q, q.1.length = n ∧ q.2.length = n) (f0 : Fm K) : ∃ f, nodeFm n f0 (flat Q) = .ok f ∧
    ∀ p, f.Holds p ↔ (f0.Holds p ∨ ∃ q ∈ Q, Box q ((List.range n).map p)) := by
  have key : ∀ (is : List Nat) (R : List (List K × List K)), is.map (fun i => Q[i]?) = R.map some → ∀ f0 : Fm K,
      ∃ f : Fm K, (is.map (fun i => 2 * i)).foldlM (rectStep n (flat Q)) f0 = .ok f ∧ ∀ p, f.Holds p ↔ (f0.Holds p ∨ ∃ q ∈ R, Box q ((List.range n).map p)) := by
    intro is
    induction is with
    | nil =>
      intro R h f0
      cases R with
      | nil => exact ⟨f0, rfl, fun p => by simp⟩
      | cons => simp at h
    | cons i is ih =>
      intro R h f0
      cases R with
      | nil => simp at h
      | cons q R =>
        simp only [List.map_cons, List.cons.injEq] at h
        obtain ⟨e1, e2⟩ := flat_get Q i
        rw [h.1, Option.map_some] at e1 e2
        obtain ⟨l1, l2⟩ := hQ q (List.mem_of_getElem? h.1)
        obtain ⟨g, hg, hgp⟩ := boxFm_ok l1 l2
        obtain ⟨f, hf, hfp⟩ := ih R h.2 (.or f0 g)
        refine ⟨f, ?_, ?_⟩
        · rw [List.map_cons]
          refine (foldlM_cons_ok _ _ _ _ _).2 ⟨.or f0 g, ?_, hf⟩
          unfold rectStep
          rw [e1, e2]
          simp only
          rw [hg]; rfl
        · intro p
          rw [hfp]
          simp only [Fm.Holds, hgp, List.mem_cons, exists_eq_or_imp, or_assoc]
  have := key (List.range Q.length) Q (map_range_get Q (fun o => o) some (fun _ => rfl)) f0
  unfold nodeFm
  rw [flat_length, pyRange_even]
  exact this

theorem unionFm_ok {n : Nat} (Qs : List (List (List K × List K))) (hQ : ∀ Q ∈ Qs, ∀ q ∈ Q, q.1.length = n ∧ q.2.length = n) :
    ∃ f, unionFm n (Qs.map flat) = .ok f ∧ ∀ p, f.Holds p ↔ ∃ Q ∈ Qs, ∃ q ∈ Q, Box q ((List.range n).map p) := by
  have key : ∀ (Qs : List (List (List K × List K))) (f0 : Fm K), (∀ Q ∈ Qs, ∀ q ∈ Q, q.1.length = n ∧ q.2.length = n) →
      ∃ f, (Qs.map flat).foldlM (nodeFm n) f0 = .ok f ∧ ∀ p, f.Holds p ↔ (f0.Holds p ∨ ∃ Q ∈ Qs, ∃ q ∈ Q, Box q ((List.range n).map p)) := by
    intro Qs
    induction Qs with
    | nil => intro f0 _; exact ⟨f0, rfl, fun p => by simp⟩
    | cons Q Qs ih =>
      intro f0 h
      obtain ⟨g, hg, hgp⟩ := nodeFm_ok Q (h Q (by simp)) f0
      obtain ⟨f, hf, hfp⟩ := ih g (fun Q' hQ' => h Q' (List.mem_cons_of_mem _ hQ'))
      refine ⟨f, (foldlM_cons_ok _ _ _ _ _).2 ⟨g, hg, hf⟩, ?_⟩
      intro p
      rw [hfp, hgp]
      simp only [List.mem_cons, exists_eq_or_imp, or_assoc]
  obtain ⟨f, hf, hp⟩ := key Qs .ff hQ
  exact ⟨f, hf, fun p => by rw [hp]; simp [Fm.Holds]⟩

/-! ### Points and states -/

theorem zip_flatMap {α β γ : Type} (f : α → List β) (g : α → List γ) : ∀ (l : List α), (∀ a ∈ l, (f a).length = (g a).length) →
    (l.flatMap f).zip (l.flatMap g) = l.flatMap (fun a => (f a).zip (g a))
  | [], _ => rfl
  | a :: l, h => by
    rw [List.flatMap_cons, List.flatMap_cons, List.flatMap_cons, List.zip_append (h a (by simp)), zip_flatMap f g l (fun b hb => h b (List.mem_cons_of_mem _ hb))]

theorem box_zip {lo hi y : List K} (h : lo.length = hi.length) :
    List.Forall₂ (fun (i : K × K) y => i.1 ≤ y ∧ y ≤ i.2) (lo.zip hi) y ↔ List.Forall₂ (· ≤ ·) lo y ∧ List.Forall₂ (· ≤ ·) y hi := by
  induction lo generalizing hi y with
  | nil =>
    cases hi with
    | nil =>
      constructor
      · intro h; cases h; exact ⟨.nil, .nil⟩
      · rintro ⟨h, -⟩; cases h; exact .nil
    | cons => simp at h
  | cons a lo ih =>
    cases hi with
    | nil => simp at h
    | cons b hi =>
      have h : lo.length = hi.length := by simpa using h
      rw [List.zip_cons_cons]
      constructor
      · intro hf
        cases hf with
        | cons h1 h2 =>
          obtain ⟨h3, h4⟩ := (ih h).1 h2
          exact ⟨.cons h1.1 h3, .cons h1.2 h4⟩
      · rintro ⟨h1, h2⟩
        cases h1 with
        | cons h1 h3 => cases h2 with
          | cons h2 h4 => exact .cons ⟨h1, h2⟩ ((ih h).2 ⟨h3, h4⟩)

theorem eq_of_between {l y : List K} (h1 : List.Forall₂ (· ≤ ·) l y) (h2 : List.Forall₂ (· ≤ ·) y l) : y = l := by
  induction h1 with
  | nil => rfl
  | cons a b ih => cases h2 with
    | cons c d => rw [ih d, le_antisymm c a]

theorem forall₂_refl_le (l : List K) : List.Forall₂ (· ≤ ·) l l := by
  induction l with
  | nil => exact .nil
  | cons a l ih => exact .cons le_rfl ih

theorem forall₂_append_left {α β : Type} {R : α → β → Prop} {a b : List α} {y : List β} (h : List.Forall₂ R (a ++ b) y) :
    ∃ y1 y2, y = y1 ++ y2 ∧ List.Forall₂ R a y1 ∧ List.Forall₂ R b y2 := by
  induction a generalizing y with
  | nil => exact ⟨[], y, rfl, .nil, h⟩
  | cons x a ih =>
    cases h with
    | cons h1 h2 =>
      obtain ⟨y1, y2, rfl, h3, h4⟩ := ih h2
      exact ⟨_ :: y1, y2, rfl, .cons h1 h3, h4⟩

/-- One agent: a point is a state in the rectangle followed by the numbers of the modes. -/
theorem box_agent {r : Row K × Row K} {ns y : List K} (h : r.1.2.length = r.2.2.length) :
    List.Forall₂ (fun (i : K × K) y => i.1 ≤ y ∧ y ≤ i.2) ((r.1.2 ++ ns).zip (r.2.2 ++ ns)) y ↔ ∃ x, y = x ++ ns ∧ In r x := by
  rw [box_zip (by simp [h])]
  constructor
  · rintro ⟨h1, h2⟩
    obtain ⟨x, m, rfl, h3, h4⟩ := forall₂_append_left h1
    obtain ⟨a, b, e, h5, h6⟩ := forall₂_append_left h2
    obtain ⟨e1, e2⟩ := List.append_inj e (by rw [← h5.length_eq, ← h3.length_eq, h])
    subst e1 e2
    exact ⟨x, by rw [eq_of_between h4 h6], h3, h5⟩
  · rintro ⟨x, rfl, h1, h2⟩
    exact ⟨List.rel_append h1 (forall₂_refl_le ns), List.rel_append h2 (forall₂_refl_le ns)⟩

/-- The point of the formula for a combination of states in a node. -/
def point (agents : List String) (E : Dict String Enum) (n : FNode K) (xs : List (List K)) : List K :=
  (List.zipWith (fun a x => x ++ nums E n a) agents xs).flatten

theorem forall₂_ex {α β γ : Type} (P : α → β → Prop) (f : α → β → γ) : ∀ (l : List α) (ys : List γ),
    List.Forall₂ (fun a y => ∃ x, y = f a x ∧ P a x) l ys ↔ ∃ xs, List.Forall₂ P l xs ∧ ys = List.zipWith f l xs
  | [], ys => by
    constructor
    · intro h; cases h; exact ⟨[], .nil, rfl⟩
    · rintro ⟨xs, h, rfl⟩; cases h; exact .nil
  | a :: l, ys => by
    constructor
    · intro h
      cases h with
      | cons h1 h2 =>
        obtain ⟨x, rfl, hx⟩ := h1
        obtain ⟨xs, hxs, rfl⟩ := (forall₂_ex P f l _).1 h2
        exact ⟨x :: xs, .cons hx hxs, rfl⟩
    · rintro ⟨xs, h, rfl⟩
      cases h with
      | cons h1 h2 => exact .cons ⟨_, rfl, h1⟩ ((forall₂_ex P f l _).2 ⟨_, h2, rfl⟩)

theorem mem_selP {sel : Sel K} {P : List (Row K × Row K)} {r : Row K × Row K} (h : r ∈ selP sel P) : r ∈ P := by
  cases sel with
  | window lo hi => exact (List.mem_filter.1 h).1
  | last T =>
    have := (List.mem_filter.1 h).1
    rw [Option.mem_toList] at this
    exact List.mem_of_getLast? this

/-- A point lies in a collected rectangle of the node iff it is a combination of states in selected rectangles, with the numbers of the node's modes. -/
theorem enc_hit {n : FNode K} (hn : NodeOk agents dim mdim n) (hne : agents ≠ []) (E : Dict String Enum) (sel : Sel K) (pt : List K) :
    (∃ q ∈ enc agents E sel n, Box q pt) ↔
      ∃ (i : Nat) (xs : List (List K)), List.Forall₂ (fun a x => ∃ r, (selP sel (rects n a))[i]? = some r ∧ In r x) agents xs ∧ pt = point agents E n xs := by
  have key : ∀ i, i < count agents sel n → ∀ q, (enc agents E sel n)[i]? = some q → (Box q pt ↔
      ∃ xs, List.Forall₂ (fun a x => ∃ r, (selP sel (rects n a))[i]? = some r ∧ In r x) agents xs ∧ pt = point agents E n xs) := by
    intro i hi q hq
    unfold enc at hq
    rw [composed_get hi, Option.some.injEq, List.flatMap_map, List.flatMap_map] at hq
    subst hq
    have hr : ∀ a ∈ agents, ∃ r, (selP sel (rects n a))[i]? = some r ∧ r.1.2.length = r.2.2.length ∧
        ((verts E sel n a)[i]?).getD ([], []) = (r.1.2 ++ nums E n a, r.2.2 ++ nums E n a) := by
      intro a ha
      have hl : i < (selP sel (rects n a)).length := by rw [count_eq hn sel ha]; exact hi
      refine ⟨_, List.getElem?_eq_getElem hl, ?_, ?_⟩
      · obtain ⟨d1, d2⟩ := hn.dims ha (mem_selP (List.getElem_mem hl))
        rw [d1, d2]
      · unfold verts
        rw [List.getElem?_map, List.getElem?_eq_getElem hl]; rfl
    unfold Box
    dsimp only
    rw [zip_flatMap _ _ agents (by
      intro a ha
      obtain ⟨r, -, h2, h3⟩ := hr a ha
      rw [h3]; simp [h2]), forall₂_flatMap]
    have hstep : ∀ ys, List.Forall₂ (fun a ya => List.Forall₂ (fun (i : K × K) y => i.1 ≤ y ∧ y ≤ i.2)
        ((((verts E sel n a)[i]?).getD ([], [])).1.zip (((verts E sel n a)[i]?).getD ([], [])).2) ya) agents ys ↔
        List.Forall₂ (fun a ya => ∃ x, ya = x ++ nums E n a ∧ ∃ r, (selP sel (rects n a))[i]? = some r ∧ In r x) agents ys := by
      intro ys
      have hiff : ∀ a ∈ agents, ∀ ya, (List.Forall₂ (fun (i : K × K) y => i.1 ≤ y ∧ y ≤ i.2)
          ((((verts E sel n a)[i]?).getD ([], [])).1.zip (((verts E sel n a)[i]?).getD ([], [])).2) ya) ↔
          (∃ x, ya = x ++ nums E n a ∧ ∃ r, (selP sel (rects n a))[i]? = some r ∧ In r x) := by
        intro a ha ya
        obtain ⟨r, h1, h2, h3⟩ := hr a ha
        rw [h3]
        dsimp only
        rw [box_agent h2]
        simp [h1]
      constructor
      · intro h; exact forall₂_imp_left h (fun a ha ya => (hiff a ha ya).1)
      · intro h; exact forall₂_imp_left h (fun a ha ya => (hiff a ha ya).2)
    constructor
    · rintro ⟨ys, rfl, h⟩
      obtain ⟨xs, h1, rfl⟩ := (forall₂_ex _ (fun a x => x ++ nums E n a) _ _).1 ((hstep ys).1 h)
      exact ⟨xs, h1, rfl⟩
    · rintro ⟨xs, h1, rfl⟩
      exact ⟨_, rfl, (hstep _).2 ((forall₂_ex _ (fun a x => x ++ nums E n a) _ _).2 ⟨xs, h1, rfl⟩)⟩
  constructor
  · rintro ⟨q, hq, hb⟩
    obtain ⟨i, hi, he⟩ := List.getElem_of_mem hq
    have hi' : i < count agents sel n := by unfold enc at hi; rwa [composed_length] at hi
    obtain ⟨xs, h⟩ := (key i hi' q (by rw [List.getElem?_eq_getElem hi, he])).1 hb
    exact ⟨i, xs, h⟩
  · rintro ⟨i, xs, h⟩
    have hi : i < count agents sel n := by
      cases agents with
      | nil => exact absurd rfl hne
      | cons a l =>
        cases h.1 with
        | cons h1 _ =>
          obtain ⟨r, hr, -⟩ := h1
          rw [← count_eq hn sel (by simp : a ∈ a :: l)]
          exact (List.getElem?_eq_some_iff.1 hr).1
    have hl : i < (enc agents E sel n).length := by unfold enc; rwa [composed_length]
    exact ⟨_, List.getElem_mem hl, (key i hi _ (List.getElem?_eq_getElem hl)).2 ⟨xs, h⟩⟩

/-- Lengths of the collected vertices. -/
theorem enc_length {n : FNode K} (hn : NodeOk agents dim mdim n) (E : Dict String Enum) (sel : Sel K) {q : List K × List K} (hq : q ∈ enc agents E sel n) :
    q.1.length = (agents.map (fun a => dim a + mdim a)).sum ∧ q.2.length = (agents.map (fun a => dim a + mdim a)).sum := by
  obtain ⟨i, hi, he⟩ := List.getElem_of_mem hq
  have hi' : i < count agents sel n := by unfold enc at hi; rwa [composed_length] at hi
  have : (enc agents E sel n)[i]? = some q := by rw [List.getElem?_eq_getElem hi, he]
  unfold enc at this
  rw [composed_get hi', Option.some.injEq, List.flatMap_map, List.flatMap_map] at this
  subst this
  have hr : ∀ a ∈ agents, (((verts E sel n a)[i]?).getD ([], [])).1.length = dim a + mdim a ∧ (((verts E sel n a)[i]?).getD ([], [])).2.length = dim a + mdim a := by
    intro a ha
    have hl : i < (selP sel (rects n a)).length := by rw [count_eq hn sel ha]; exact hi'
    obtain ⟨d1, d2⟩ := hn.dims ha (mem_selP (List.getElem_mem hl))
    obtain ⟨ms, h1, h2, -⟩ := hn.mode a ha
    unfold verts
    rw [List.getElem?_map, List.getElem?_eq_getElem hl]
    simp [nums, modes, h1, h2, d1, d2]
  constructor
  · rw [List.length_flatMap]
    congr 1
    exact List.map_congr_left (fun a ha => (hr a ha).1)
  · rw [List.length_flatMap]
    congr 1
    exact List.map_congr_left (fun a ha => (hr a ha).2)

/-! ### Same point, same modes -/

theorem nums_inj [IsStrictOrderedRing K] {E : Dict String Enum} (hE : EnumOk agents E) {n n' : FNode K} {a : String} (ha : a ∈ agents) (h1 : Numbered E n a) (h2 : Numbered E n' a)
    (h : nums E n a = nums E n' a) : modes n a = modes n' a := by
  obtain ⟨d, hd, hok⟩ := hE a ha
  have hd' : numOf E a = d := by unfold numOf; rw [hd]; rfl
  unfold nums at h
  unfold Numbered at h1 h2
  rw [hd'] at h h1 h2
  generalize modes n a = l1 at *
  generalize modes n' a = l2 at *
  induction l1 generalizing l2 with
  | nil => cases l2 with
    | nil => rfl
    | cons => simp at h
  | cons m l1 ih =>
    cases l2 with
    | nil => simp at h
    | cons m' l2 =>
      simp only [List.map_cons, List.cons.injEq, Nat.cast_inj] at h
      obtain ⟨i1, v1, e1⟩ := h1 m (by simp)
      obtain ⟨i2, v2, e2⟩ := h2 m' (by simp)
      rw [e1, e2] at h
      have hv : v1 = v2 := h.1
      subst hv
      rw [hok.inj m m' v1 i1 i2 e1 e2, ih (fun x hx => h1 x (List.mem_cons_of_mem _ hx)) l2 (fun x hx => h2 x (List.mem_cons_of_mem _ hx)) h.2]

theorem point_inj {E : Dict String Enum} {n n' : FNode K} : ∀ (l : List String) (xs xs' : List (List K)),
    List.Forall₂ (fun a x => x.length = dim a) l xs → List.Forall₂ (fun a x => x.length = dim a) l xs' → (∀ a ∈ l, (nums E n a).length = (nums E n' a).length) →
    point l E n xs = point l E n' xs' → xs = xs' ∧ ∀ a ∈ l, nums E n a = nums E n' a
  | [], xs, xs', h1, h2, _, _ => by cases h1; cases h2; simp
  | a :: l, xs, xs', h1, h2, h3, h => by
    cases h1 with
    | cons h1 h1' => cases h2 with
      | cons h2 h2' =>
        unfold point at h
        rw [List.zipWith_cons_cons, List.zipWith_cons_cons, List.flatten_cons, List.flatten_cons] at h
        obtain ⟨e1, e2⟩ := List.append_inj h (by simp [h1, h2, h3 a (by simp)])
        obtain ⟨e3, e4⟩ := List.append_inj e1 (by rw [h1, h2])
        obtain ⟨i1, i2⟩ := point_inj l _ _ h1' h2' (fun b hb => h3 b (List.mem_cons_of_mem _ hb)) e2
        subst e3 i1
        refine ⟨rfl, ?_⟩
        intro b hb
        rcases List.mem_cons.1 hb with rfl | hb
        · exact e4
        · exact i2 b hb

/-- The `i`-th selected rectangles of all agents are their `j`-th rectangles, for the same `j`. -/
theorem filter_index {α β : Type} (t : α → β) (p : β → Bool) : ∀ (ts : List β) (i : Nat), ∃ j : Nat, ∀ P : List α, P.map t = ts → ∀ r,
    (P.filter (fun a => p (t a)))[i]? = some r → P[j]? = some r ∧ p (t r) = true
  | [], i => ⟨0, fun P h r hr => by
      have : P = [] := by simpa using h
      subst this; simp at hr⟩
  | b :: ts, i => by
    by_cases hb : p b = true
    · cases i with
      | zero =>
        refine ⟨0, fun P h r hr => ?_⟩
        cases P with
        | nil => simp at h
        | cons a P =>
          simp only [List.map_cons, List.cons.injEq] at h
          rw [List.filter_cons, h.1, if_pos hb] at hr
          simp at hr
          subst hr
          exact ⟨rfl, by rw [h.1]; exact hb⟩
      | succ i =>
        obtain ⟨j, hj⟩ := filter_index t p ts i
        refine ⟨j + 1, fun P h r hr => ?_⟩
        cases P with
        | nil => simp at h
        | cons a P =>
          simp only [List.map_cons, List.cons.injEq] at h
          rw [List.filter_cons, h.1, if_pos hb] at hr
          rw [List.getElem?_cons_succ] at hr ⊢
          exact hj P h.2 r hr
    · obtain ⟨j, hj⟩ := filter_index t p ts i
      refine ⟨j + 1, fun P h r hr => ?_⟩
      cases P with
      | nil => simp at h
      | cons a P =>
        simp only [List.map_cons, List.cons.injEq] at h
        rw [List.filter_cons, h.1, if_neg hb] at hr
        rw [List.getElem?_cons_succ]
        exact hj P h.2 r hr

/-- Conversely. -/
theorem index_filter {α β : Type} (t : α → β) (p : β → Bool) : ∀ (ts : List β) (j : Nat), ∃ i : Nat, ∀ P : List α, P.map t = ts → ∀ r,
    P[j]? = some r → p (t r) = true → (P.filter (fun a => p (t a)))[i]? = some r
  | [], j => ⟨0, fun P h r hr => by
      have : P = [] := by simpa using h
      subst this; simp at hr⟩
  | b :: ts, 0 => by
    refine ⟨0, fun P h r hr hp => ?_⟩
    cases P with
    | nil => simp at h
    | cons a P =>
      simp only [List.map_cons, List.cons.injEq] at h
      simp at hr
      subst hr
      rw [List.filter_cons, if_pos hp]
      rfl
  | b :: ts, j + 1 => by
    obtain ⟨i, hi⟩ := index_filter t p ts j
    by_cases hb : p b = true
    · refine ⟨i + 1, fun P h r hr hp => ?_⟩
      cases P with
      | nil => simp at h
      | cons a P =>
        simp only [List.map_cons, List.cons.injEq] at h
        rw [List.getElem?_cons_succ] at hr
        rw [List.filter_cons, h.1, if_pos hb, List.getElem?_cons_succ]
        exact hi P h.2 r hr hp
    · refine ⟨i, fun P h r hr hp => ?_⟩
      cases P with
      | nil => simp at h
      | cons a P =>
        simp only [List.map_cons, List.cons.injEq] at h
        rw [List.getElem?_cons_succ] at hr
        rw [List.filter_cons, h.1, if_neg hb]
        exact hi P h.2 r hr hp

end Verif.Proofs.Fix
