import Verif.Model.Task
import Verif.Lemmas.Mesh

namespace Verif.Task
open Verif.Mesh Verif.Mesh.Spec

theorem mem_setdiff1d {a b : List ℕ} {e : ℕ} : e ∈ setdiff1d a b ↔ e ∈ a ∧ e ∉ b := by simp [setdiff1d]

theorem bind_ok {α β : Type} {x : Res α} {f : α → Res β} {y : β} (h : (x >>= f) = .ok y) :
    ∃ a, x = .ok a ∧ f a = .ok y := by
  rcases x with e | a
  · simp [bind, Except.bind] at h
  · exact ⟨a, rfl, h⟩

theorem mem_elementsByNodes {t : Conn} {l : List ℕ} {e : ℕ} : e ∈ elementsByNodes t l ↔ Touches t l e :=
  (collect_lists t l).2 e

theorem touches_lt {t : Conn} {l : List ℕ} {e : ℕ} (h : Touches t l e) : e < t.length := by
  obtain ⟨n, -, hn⟩ := h
  exact (contains_iff.1 hn).1

/-- All node numbers of an argument. -/
def Arrays.nodes : Arrays → List ℕ
  | .arr l => l
  | .lst ls => ls.flatten

theorem concatenated_ok {a : Arrays} {l : List ℕ} (h : a.concatenated = .ok l) : l = a.nodes := by
  cases a with
  | arr l' => simp [Arrays.concatenated] at h; exact h.symm
  | lst ls =>
    simp only [Arrays.concatenated, concatenate] at h
    split_ifs at h
    simp at h; exact h.symm

theorem stacked_ok {a : Arrays} {l : List ℕ} (h : a.stacked = .ok l) : l = a.nodes := by
  cases a with
  | arr l' => simp [Arrays.stacked] at h; exact h.symm
  | lst ls =>
    simp only [Arrays.stacked, stack] at h
    split_ifs at h
    simp at h; exact h.symm

theorem boundaryElements_ok {b : Basis} {nodes : Option Arrays} {r : Option (List ℕ)}
    (h : boundaryElements b nodes = .ok r) :
    (nodes = none ∧ r = none) ∨ ∃ a els, nodes = some a ∧ r = some els ∧ els ≠ [] ∧
      els = elementsByNodes b.t a.nodes := by
  rcases nodes with _ | a
  · simp [boundaryElements] at h; exact Or.inl ⟨rfl, h.symm⟩
  · obtain ⟨l, h1, h2⟩ := bind_ok h
    have := concatenated_ok h1
    subst this
    simp only at h2
    split_ifs at h2 with he
    simp only [Except.ok.injEq] at h2
    exact Or.inr ⟨a, _, rfl, h2.symm, by simpa using he, rfl⟩

theorem dirichletPart_ok {b : Basis} {a : Args} {d} (h : dirichletPart b a = .ok d) :
    (a.dirichletNodes = none ∧ d = (none, none)) ∨ ∃ nodes dofs, a.dirichletNodes = some nodes ∧
      dirichletDofs b nodes a.dirichletDir = .ok dofs ∧ d = (some dofs, some (elementsByNodes b.t nodes.nodes)) := by
  unfold dirichletPart at h
  rcases hn : a.dirichletNodes with _ | nodes
  · rw [hn] at h; simp at h; exact Or.inl ⟨rfl, h.symm⟩
  · rw [hn] at h
    simp only at h
    obtain ⟨_, _, h⟩ := bind_ok h
    obtain ⟨dofs, h1, h⟩ := bind_ok h
    obtain ⟨l, h2, h⟩ := bind_ok h
    have := stacked_ok h2
    subst this
    simp only [pure, Except.pure, Except.ok.injEq] at h
    exact Or.inr ⟨nodes, dofs, rfl, h1, h.symm⟩

/-- What a successful construction computed. -/
theorem fromNodes_ok {b : Basis} {a : Args} {T : Task} (h : fromNodes b a = .ok T) :
    ∃ d neumann robin ex fixedDofs, dirichletPart b a = .ok d ∧ boundaryElements b a.neumannNodes = .ok neumann ∧
      boundaryElements b a.robinNodes = .ok robin ∧ excluded neumann robin a.designRobin = .ok ex ∧
      setdiff1d a.design ex ≠ [] ∧ b.volumes = .ok () ∧
      constrainedDofs d.1 = .ok fixedDofs ∧
      T = { dirichletDofs := d.1, dirichletElements := d.2, neumannElements := neumann, robinElements := robin,
            design := setdiff1d a.design ex, freeDofs := setdiff1d (List.range b.nDofs) fixedDofs,
            freeElements := elementsByNodes b.t (setdiff1d (List.range b.nDofs) fixedDofs),
            all := List.range b.t.length,
            fixed := setdiff1d (List.range b.t.length) (setdiff1d a.design ex),
            dirichletNeumann := d.2.getD [] ++ neumann.getD [] } := by
  unfold fromNodes at h
  obtain ⟨d, hd, h⟩ := bind_ok h
  obtain ⟨neumann, hn, h⟩ := bind_ok h
  obtain ⟨robin, hr, h⟩ := bind_ok h
  obtain ⟨ex, he, h⟩ := bind_ok h
  simp only at h
  split_ifs at h with hemp
  obtain ⟨fd, hf, h⟩ := bind_ok h
  obtain ⟨_, hv, h⟩ := bind_ok h
  simp only [pure, Except.pure, Except.ok.injEq] at h
  refine ⟨d, neumann, robin, ex, fd, hd, hn, hr, he, by simpa using hemp, hv, hf, h.symm⟩

theorem excluded_ok {neumann robin : Option (List ℕ)} {dr : Option Bool} {ex : List ℕ}
    (h : excluded neumann robin dr = .ok ex) (e : ℕ) :
    e ∈ ex ↔ e ∈ neumann.getD [] ∨ (dr = some false ∧ e ∈ robin.getD []) := by
  unfold excluded at h
  simp only at h
  split_ifs at h with hd
  · rcases robin with _ | r
    · simp at h
    · simp only [Except.ok.injEq] at h; subst h; simp [hd]
  · simp only [Except.ok.injEq] at h; subst h; simp [hd]

/-- Elements touching an optional set of nodes. -/
theorem boundary_mem {b : Basis} {nodes : Option Arrays} {r : Option (List ℕ)}
    (h : boundaryElements b nodes = .ok r) (e : ℕ) :
    e ∈ r.getD [] ↔ ∃ a, nodes = some a ∧ Touches b.t a.nodes e := by
  rcases boundaryElements_ok h with ⟨rfl, rfl⟩ | ⟨a, els, rfl, rfl, -, rfl⟩
  · simp
  · simp [mem_elementsByNodes]

end Verif.Task
