import Verif.Props.Engine
import Mathlib.Data.List.Forall2

/-! Every node of a returned tree, seen through the worker. -/

set_option autoImplicit false

namespace Verif.Engine
open Verif.Spec

variable {X T A : Type}

theorem exploresAll_forall₂ {P : Problem X T A} {h : Nat} {cs : List (Child X T)} {ts : List (RTree (Label X T A))}
    (hx : ExploresAll P h cs ts) :
    List.Forall₂ (fun c t => Explores P h (P.round c.start) c.body c.trace t) cs ts := by
  induction cs generalizing ts with
  | nil => cases hx; exact .nil
  | cons c cs ih => cases hx with
    | cons h1 h2 => exact .cons h1 (ih h2)

/-- One node of an exploration. -/
theorem explores_node {P : Problem X T A} {h : Nat} {st : ℚ} {b : X} {tr : T} {g : RTree (Label X T A)}
    (hx : Explores P h st b tr g) : g.label.height = h ∧ g.label.start = st ∧ g.label.body = b ∧
    ((¬ P.explored h st ∧ g.kids = [] ∧ g.label.trace = tr ∧ g.label.hits = P.noHits) ∨
     (P.explored h st ∧ g.label.trace = (P.expand ⟨h, st, b, tr⟩).trace ∧
      g.label.hits = (P.expand ⟨h, st, b, tr⟩).hits ∧
      List.Forall₂ (fun c t => Explores P (h + 1) (P.round c.start) c.body c.trace t)
        (P.expand ⟨h, st, b, tr⟩).next g.kids)) := by
  cases hx with
  | leaf hn => exact ⟨rfl, rfl, rfl, Or.inl ⟨hn, rfl, rfl, rfl⟩⟩
  | node hn hk => exact ⟨rfl, rfl, rfl, Or.inr ⟨hn, rfl, rfl, exploresAll_forall₂ hk⟩⟩

/-- Invariants of what is handed to workers hold at every node. -/
theorem explores_below_inv {P : Problem X T A} {I : Work X T → Prop}
    (hI : ∀ w : Work X T, P.explored w.height w.start → I w → ∀ c ∈ (P.expand w).next,
      I ⟨w.height + 1, P.round c.start, c.body, c.trace⟩)
    {t u : RTree (Label X T A)} {k : Nat} (hb : RTree.Below t u k) :
    ∀ {h : Nat} {st : ℚ} {b : X} {tr : T}, Explores P h st b tr t → I ⟨h, st, b, tr⟩ →
      ∃ st' b' tr', Explores P (h + k) st' b' tr' u ∧ I ⟨h + k, st', b', tr'⟩ := by
  induction hb with
  | refl t => intro h st b tr hx hi; exact ⟨st, b, tr, hx, hi⟩
  | step hmem hb ih =>
    rename_i d ts t u k
    intro h st b tr hx hi
    obtain ⟨-, -, -, h' | ⟨h1, -, -, h4⟩⟩ := explores_node hx
    · simp only [RTree.kids] at h'; rw [h'.2.1] at hmem; simp at hmem
    · have : ∃ c ∈ (P.expand ⟨h, st, b, tr⟩).next, Explores P (h + 1) (P.round c.start) c.body c.trace t := by
        simp only [RTree.kids] at h4
        generalize (P.expand ⟨h, st, b, tr⟩).next = cs at h4
        clear ih hb hx h1
        induction h4 with
        | nil => simp at hmem
        | cons a1 _ ih2 =>
          rcases List.mem_cons.1 hmem with rfl | hm
          · exact ⟨_, by simp, a1⟩
          · obtain ⟨c, hc, hx⟩ := ih2 hm
            exact ⟨c, by simp [hc], hx⟩
      obtain ⟨c, hc, hx'⟩ := this
      have hi' := hI _ h1 hi c hc
      obtain ⟨st', b', tr', q1, q2⟩ := ih hx' hi'
      exact ⟨st', b', tr', by rw [show h + (k + 1) = h + 1 + k by omega]; exact q1,
        by rw [show h + (k + 1) = h + 1 + k by omega]; exact q2⟩

theorem returned_explores {cfg : Cfg X T A} {body : X} {trace : T} {t : RTree (Label X T A)}
    (h : Returned cfg body trace t) :
    Explores (problem cfg (cfg.parallel && decide (cfg.kind = .sim))) 0 (cfg.roundN 0) body trace t := by
  obtain ⟨ha, picks, s, g, h1, h2, rfl⟩ := h
  obtain ⟨g', d1, d2⟩ := Props.C07_loop_computes_exploration cfg ha body trace picks s h1
  rw [denotes_det h2 d1]; exact d2

end Verif.Engine
