import Verif.Props.Bnd
import Verif.Props.BndExample

/-!
C84: the elements of .bnd files of dimension 2.
-/

namespace VG

variable {C : Type}

/-- Specification: `p` are the two end points of the edge which `i` refers to, in the direction in which the edge is stored. -/
def EdgeEnds (edges : List (Int × Int)) (i : Int) (p : List Int) : Prop := ∃ k e, RefersTo i k ∧ edges[k]? = some e ∧ p = [e.1, e.2]

/-- How a polygon (type 4) is written: the number of its edges, and the edges. -/
def flatWords (s : List Int) : List (BWord C) := .int 4 :: .int s.length :: s.map .int

/-- How a contact line (type 1) is written. -/
def flatContactWords (c : List Int) : List (BWord C) := .int 1 :: c.map .int

theorem readFlat_reads {edges : List (Int × Int)} {D R : List (List (List Int))} {cs : List (List Int)} :
    ∀ {is : List Int} {ps : List (List Int)}, List.Forall₂ (EdgeEnds edges) is ps →
    ∀ {cur : List (List Int)} {ls rest : BLines C}, Lays (is.map .int) ls rest →
    (readFlat edges D.length is.length ⟨D ++ cur :: R, cs⟩).Reads ls ⟨D ++ (cur ++ ps) :: R, cs⟩ rest
  | [], _, .nil, cur, ls, rest, h => by
    obtain rfl : ls = rest := h
    rw [List.append_nil]
    exact BndR.Reads.done _ _
  | i :: is, _, .cons (b := p) (l₂ := ps) hp hps, cur, ls, rest, h => by
    obtain ⟨mid, h1, h2⟩ := Lays.append (ws := [.int i]) h
    refine (getLong_reads h1).andThen ?_
    obtain ⟨k, e, hk, he, rfl⟩ := hp
    rw [bndIndex_of_refersTo hk, he]
    simp only
    refine (push_reads D R cur cs _ mid).andThen ?_
    have := readFlat_reads (D := D) (R := R) (cs := cs) hps (cur := cur ++ [[e.1, e.2]]) h2
    rw [List.append_assoc] at this
    exact this

theorem readElements_flat {edges : List (Int × Int)} {faces : List (List Int)} (m : Nat) :
    ∀ {segs : List (List Int)} {polys : List (List (List Int))},
    List.Forall₂ (fun s ps => List.Forall₂ (EdgeEnds edges) s ps) segs polys →
    ∀ {D : List (List (List Int))} {ls mid rest : BLines C} {x : BndElems × Bool}, Lays (segs.flatMap flatWords) ls mid →
    (readElements edges faces m (D.length + segs.length) ⟨D ++ polys ++ List.replicate m [], []⟩).Reads mid x rest →
    (readElements edges faces (segs.length + m) D.length ⟨D ++ List.replicate (segs.length + m) [], []⟩).Reads ls x rest
  | [], _, .nil, D, ls, mid, rest, x, h, h' => by
    obtain rfl : ls = mid := h
    simpa using h'
  | s :: segs, _, .cons (b := ps) (l₂ := polys) hs hss, D, ls, mid, rest, x, h, h' => by
    obtain ⟨m1, h1, h2⟩ := Lays.append h
    obtain ⟨m2, h3, m3, h4, h5⟩ := h1
    have hn : (s :: segs).length + m = (segs.length + m) + 1 := by simp; omega
    rw [hn, List.replicate_succ]
    have hE : (readElement edges faces D.length ⟨D ++ [] :: List.replicate (segs.length + m) [], []⟩).Reads ls
        (⟨D ++ ps :: List.replicate (segs.length + m) [], []⟩, false) m1 := by
      unfold BndR.Reads readElement
      rw [h3]
      exact (getSize_reads (n := s.length) ⟨m3, h4, rfl⟩).andThen
        ((readFlat_reads (cur := []) hs h5).andThen (BndR.Reads.done _ _))
    refine hE.andThen ?_
    have := readElements_flat m hss (D := D ++ [ps]) (ls := m1) (mid := mid) (rest := rest) (x := x) h2 (by
      simpa [Nat.add_assoc, Nat.add_comm 1] using h')
    simpa using this

theorem readElements_flatContacts {edges : List (Int × Int)} {faces : List (List Int)} {D : List (List (List Int))} :
    ∀ {contacts : List (List Int)}, (∀ c ∈ contacts, c.length = 2) → ∀ {cs : List (List Int)} {i : Nat}
    {ls rest : BLines C}, Lays (contacts.flatMap flatContactWords) ls rest →
    (readElements edges faces contacts.length i ⟨D ++ List.replicate contacts.length [], cs⟩).Reads ls
      (⟨D, cs ++ contacts⟩, false) rest
  | [], _, cs, i, ls, rest, h => by
    obtain rfl : ls = rest := h
    simp only [List.length_nil, List.replicate_zero, List.append_nil, readElements]
    exact BndR.Reads.done _ _
  | c :: contacts, hc, cs, i, ls, rest, h => by
    obtain ⟨m1, h1, h2⟩ := Lays.append h
    obtain ⟨m2, h3, h4⟩ := h1
    have hE : (readElement edges faces i ⟨D ++ List.replicate (contacts.length + 1) [], cs⟩).Reads ls
        (⟨D ++ List.replicate contacts.length [], cs ++ [c]⟩, false) m1 := by
      unfold BndR.Reads readElement
      rw [h3]
      have := times_long (C := C) h4
      rw [hc c (by simp)] at this
      refine this.andThen ?_
      unfold BndElems.contact
      rw [List.replicate_succ', ← List.append_assoc, List.dropLast_concat]
      exact BndR.Reads.done _ _
    refine hE.andThen ?_
    have := readElements_flatContacts (edges := edges) (faces := faces) (contacts := contacts)
        (fun d hd => hc d (by simp [hd])) (D := D) (cs := cs ++ [c]) (i := i + 1) h2
    rw [List.append_assoc] at this
    exact this

/-- **C84**, files of dimension 2, partial: from the elements, polygons given by edges used in either direction and then contact lines, in any
distribution over lines, `bnd_helper` has for each polygon the two ends of each of its edges, and the contacts as they are.  Only the part of the
file with the elements; the ends are in the order in which the edge is stored, also if it is used backwards. -/
theorem C84_flat_partial {edges : List (Int × Int)} {faces : List (List Int)} {segs contacts : List (List Int)}
    (hs : ∀ s ∈ segs, ∀ i ∈ s, ∃ k < edges.length, RefersTo i k) (hc : ∀ c ∈ contacts, c.length = 2)
    {ls mid rest : BLines C} (h1 : Lays (segs.flatMap flatWords) ls mid) (h2 : Lays (contacts.flatMap flatContactWords) mid rest) :
    ∃ polys, List.Forall₂ (fun s ps => List.Forall₂ (EdgeEnds edges) s ps) segs polys ∧
      readElements edges faces (segs.length + contacts.length) 0 ⟨List.replicate (segs.length + contacts.length) [], []⟩ ls =
        .ok (rest, ⟨polys, contacts⟩, false) := by
  have hex : ∀ i, (∃ k < edges.length, RefersTo i k) → ∃ p, EdgeEnds edges i p := by
    rintro i ⟨k, hk, hr⟩
    exact ⟨_, k, edges[k], hr, List.getElem?_eq_getElem hk, rfl⟩
  have hrow : ∀ s : List Int, (∀ i ∈ s, ∃ k < edges.length, RefersTo i k) → ∃ ps, List.Forall₂ (EdgeEnds edges) s ps := by
    intro s
    induction s with
    | nil => exact fun _ => ⟨[], .nil⟩
    | cons i s ih =>
      intro h
      obtain ⟨p, hp⟩ := hex i (h i (by simp))
      obtain ⟨ps, hps⟩ := ih fun j hj => h j (by simp [hj])
      exact ⟨p :: ps, .cons hp hps⟩
  have hall : ∀ segs : List (List Int), (∀ s ∈ segs, ∀ i ∈ s, ∃ k < edges.length, RefersTo i k) →
      ∃ polys, List.Forall₂ (fun s ps => List.Forall₂ (EdgeEnds edges) s ps) segs polys := by
    intro segs
    induction segs with
    | nil => exact fun _ => ⟨[], .nil⟩
    | cons s segs ih =>
      intro h
      obtain ⟨p, hp⟩ := hrow s (h s (by simp))
      obtain ⟨ps, hps⟩ := ih fun j hj => h j (by simp [hj])
      exact ⟨p :: ps, .cons hp hps⟩
  obtain ⟨polys, hp⟩ := hall segs hs
  refine ⟨polys, hp, ?_⟩
  have hk := readElements_flatContacts (edges := edges) (faces := faces) (D := polys) hc (cs := []) (i := segs.length) h2
  have := readElements_flat contacts.length hp (D := []) (x := (⟨polys, contacts⟩, false)) h1 (by simpa using hk)
  simpa [BndR.Reads] using this

/-- A triangle, with one edge used backwards, and a contact, over two lines. -/
example : ∃ polys, List.Forall₂ (fun s ps => List.Forall₂ (EdgeEnds [(0, 1), (1, 2), (0, 2)]) s ps) [[0, 1, -3]] polys ∧
    readElements (C := Rat) [(0, 1), (1, 2), (0, 2)] [] 2 0 ⟨[[], []], []⟩ [[.int 4, .int 3, .int 0, .int 1, .int (-3)], [.int 1, .int 0, .int 1]] =
      .ok ([[]], ⟨polys, [[0, 1]]⟩, false) :=
  C84_flat_partial (segs := [[0, 1, -3]]) (contacts := [[0, 1]]) (mid := [[], [.int 1, .int 0, .int 1]])
    (by
      intro s hs i hi
      simp only [List.mem_singleton] at hs
      subst hs
      exact ⟨bndIndex i, by revert i; decide, refersTo_bndIndex i⟩)
    (by simp)
    ⟨_, rfl, _, rfl, _, rfl, _, rfl, _, rfl, rfl⟩ ⟨_, rfl, _, rfl, _, rfl, rfl⟩

/-- The polygons are these. -/
example : (match readElements (C := Rat) [(0, 1), (1, 2), (0, 2)] [] 2 0 ⟨[[], []], []⟩
      [[.int 4, .int 3, .int 0, .int 1, .int (-3)], [.int 1, .int 0, .int 1]] with
    | .ok x => some (x.2.1.domain, x.2.1.contacts)
    | .error _ => none) = some ([[[0, 1], [1, 2], [0, 2]]], [[0, 1]]) := by decide +kernel

end VG
