import Verif.Props.BndFile
import Mathlib.Data.List.TakeWhile

/-! How the reader of .bnd files runs over the lines of a file. -/

namespace VG

variable {C A B : Type}

/-- Reading gives the result and leaves the lines. -/
def BndR.Reads (r : BndR C A) (ls : BLines C) (a : A) (rest : BLines C) : Prop := r ls = .ok (rest, a)

theorem BndR.Reads.done (a : A) (ls : BLines C) : (BndR.done a : BndR C A).Reads ls a ls := rfl

theorem BndR.Reads.andThen {r : BndR C A} {f : A → BndR C B} {ls mid rest : BLines C} {a : A} {b : B}
    (h : r.Reads ls a mid) (h' : (f a).Reads mid b rest) : (r.andThen f).Reads ls b rest := by
  unfold BndR.Reads at h h' ⊢
  unfold BndR.andThen
  rw [h]
  exact h'

/-- The words are the next ones. -/
def Lays : List (BWord C) → BLines C → BLines C → Prop
  | [], ls, rest => ls = rest
  | w :: ws, ls, rest => ∃ mid, nextWord ls = some (w, mid) ∧ Lays ws mid rest

theorem Lays.append {ws ws' : List (BWord C)} {ls rest : BLines C} (h : Lays (ws ++ ws') ls rest) :
    ∃ mid, Lays ws ls mid ∧ Lays ws' mid rest := by
  induction ws generalizing ls with
  | nil => exact ⟨ls, rfl, h⟩
  | cons w ws ih =>
    obtain ⟨m, h1, h2⟩ := h
    obtain ⟨mid, h3, h4⟩ := ih h2
    exact ⟨mid, ⟨m, h1, h3⟩, h4⟩

theorem nextWord_body {w : BWord C} {ws : List (BWord C)} (tail : BLines C) : ∀ {body : BLines C},
    body.flatten = w :: ws → ∃ body', nextWord (body ++ tail) = some (w, body' ++ tail) ∧ body'.flatten = ws
  | [], h => by simp at h
  | [] :: body, h => by
    obtain ⟨body', h1, h2⟩ := nextWord_body tail (body := body) (by simpa using h)
    exact ⟨body', h1, h2⟩
  | (x :: l) :: body, h => by
    simp only [List.flatten_cons, List.cons_append, List.cons.injEq] at h
    obtain ⟨rfl, h⟩ := h
    exact ⟨l :: body, rfl, by simpa using h⟩

/-- Words spread over lines. -/
theorem lays_body (tail : BLines C) : ∀ (ws : List (BWord C)) {body : BLines C}, body.flatten = ws →
    ∃ bl : BLines C, (∀ l ∈ bl, l = []) ∧ Lays ws (body ++ tail) (bl ++ tail)
  | [], body, h => ⟨body, fun l hl => by simpa using List.flatten_eq_nil_iff.1 h l hl, rfl⟩
  | w :: ws, body, h => by
    obtain ⟨body', h1, h2⟩ := nextWord_body tail h
    obtain ⟨bl, h3, h4⟩ := lays_body tail ws h2
    exact ⟨bl, h3, _, h1, h4⟩

theorem getLong_reads {i : Int} {ls rest : BLines C} (h : Lays [.int i] ls rest) : getLong.Reads ls i rest := by
  obtain ⟨mid, h1, rfl⟩ := h
  simp [BndR.Reads, getLong, h1]

theorem getSize_reads {n : Nat} {ls rest : BLines C} (h : Lays [.int n] ls rest) : getSize.Reads ls n rest := by
  refine (getLong_reads h).andThen ?_
  rw [if_pos (by omega)]
  simpa using BndR.Reads.done n rest

theorem getCoord_reads {ofInt : Int → C} {c : Coord C} {ls rest : BLines C} (h : Lays [coordWord c] ls rest) :
    (getCoord ofInt).Reads ls (coordVal ofInt c) rest := by
  obtain ⟨mid, h1, rfl⟩ := h
  cases c <;> simp_all [BndR.Reads, getCoord, coordWord, coordVal]

/-- A loop over things that are written one after another. -/
theorem times_reads {r : BndR C A} {X : Type} {w : X → List (BWord C)} {v : X → A} :
    ∀ {xs : List X}, (∀ x ∈ xs, ∀ ls rest, Lays (w x) ls rest → r.Reads ls (v x) rest) →
    ∀ {ls rest : BLines C}, Lays (xs.flatMap w) ls rest → (BndR.times r xs.length).Reads ls (xs.map v) rest
  | [], _, ls, rest, h => by
    obtain rfl : ls = rest := h
    exact BndR.Reads.done _ _
  | x :: xs, hr, ls, rest, h => by
    rw [List.flatMap_cons] at h
    obtain ⟨mid, h1, h2⟩ := h.append
    exact (hr x (by simp) _ _ h1).andThen ((times_reads (fun y hy => hr y (by simp [hy])) h2).andThen
      (BndR.Reads.done _ _))

theorem times_long {is : List Int} {ls rest : BLines C} (h : Lays (is.map .int) ls rest) :
    (BndR.times getLong is.length).Reads ls is rest := by
  have := times_reads (r := (getLong : BndR C Int)) (w := fun i => [.int i]) (v := id) (xs := is)
    (fun i _ ls rest h => getLong_reads h) (ls := ls) (rest := rest) (by rw [← List.map_eq_flatMap]; exact h)
  simpa using this

theorem times_coord {ofInt : Int → C} {p : List (Coord C)} {ls rest : BLines C} (h : Lays (p.map coordWord) ls rest) :
    (BndR.times (getCoord ofInt) p.length).Reads ls (p.map (coordVal ofInt)) rest :=
  times_reads (w := fun c => [coordWord c]) (v := coordVal ofInt) (fun c _ _ _ h => getCoord_reads h)
    (by rw [← List.map_eq_flatMap]; exact h)

/-! ### Searches -/

theorem seekWord_reads [DecidableEq C] {s : String} {before after : List (BWord C)} (hb : BWord.word s ∉ before) :
    ∀ {pre : BLines C}, (∀ l ∈ pre, BWord.word s ∉ l) → ∀ (more : BLines C),
    (seekWord s).Reads (pre ++ (before ++ .word s :: after) :: more) () (after :: more)
  | [], _, more => by
    unfold BndR.Reads
    rw [List.nil_append, seekWord, List.dropWhile_append_of_pos]
    · simp
    · intro w hw
      exact decide_eq_true fun h => hb (h ▸ hw)
  | l :: pre, hp, more => by
    have hl := hp l (by simp)
    have : l.dropWhile (fun w => decide (w ≠ .word s)) = [] := by
      rw [List.dropWhile_eq_nil_iff]
      intro w hw
      exact decide_eq_true fun h => hl (h ▸ hw)
    unfold BndR.Reads
    rw [List.cons_append, seekWord, this]
    exact seekWord_reads hb (fun l hl => hp l (by simp [hl])) more

theorem seekLine_reads {s : String} {l : List (BWord C)} (hl : l.any (·.has s) = true) :
    ∀ {gap : BLines C}, (∀ l ∈ gap, l.any (·.has s) = false) → ∀ (more : BLines C),
    (seekLine s).Reads (gap ++ l :: more) l more
  | [], _, more => by
    unfold BndR.Reads
    rw [List.nil_append, seekLine, if_pos hl]
  | g :: gap, hg, more => by
    unfold BndR.Reads
    rw [List.cons_append, seekLine, hg g (by simp)]
    exact seekLine_reads hl (fun l hl => hg l (by simp [hl])) more

theorem seekLine_hangs {s : String} : ∀ {gap : BLines C}, (∀ l ∈ gap, l.any (·.has s) = false) →
    seekLine s gap = .error .hangs
  | [], _ => rfl
  | g :: gap, hg => by
    rw [seekLine, hg g (by simp)]
    exact seekLine_hangs fun l hl => hg l (by simp [hl])

/-! ### Corners -/

theorem refersTo_bndIndex (i : Int) : RefersTo i (bndIndex i) := by
  unfold RefersTo bndIndex
  split <;> omega

theorem bndIndex_of_refersTo {i : Int} {k : Nat} (h : RefersTo i k) : bndIndex i = k := by
  unfold RefersTo at h
  unfold bndIndex
  split <;> omega

theorem pushNew_spec (acc : List Int) (v : Int) (h : acc.Nodup) : (if v ∈ acc then acc else acc ++ [v]).Nodup ∧
    ∀ x, x ∈ (if v ∈ acc then acc else acc ++ [v]) ↔ x ∈ acc ∨ x = v := by
  split
  · rename_i hv
    exact ⟨h, fun x => ⟨Or.inl, fun hx => hx.elim id fun hx => hx ▸ hv⟩⟩
  · rename_i hv
    refine ⟨?_, fun x => by simp⟩
    rw [List.nodup_append]
    exact ⟨h, by simp, fun a ha b hb => by rw [List.mem_singleton] at hb; subst hb; exact fun he => hv (he ▸ ha)⟩

theorem bndCorners_spec {edges : List (Int × Int)} : ∀ {is acc : List Int}, EdgesExist edges is → acc.Nodup →
    ∃ p, bndCorners edges is acc = some p ∧ p.Nodup ∧ ∀ v, v ∈ p ↔ v ∈ acc ∨ IsEnd edges is v
  | [], acc, _, hn => ⟨acc, rfl, hn, fun v => by simp [IsEnd]⟩
  | i :: is, acc, he, hn => by
    obtain ⟨k, h1, h2⟩ := he i (by simp)
    have hk := bndIndex_of_refersTo h1
    have hedge : edges[bndIndex i]? = some edges[k] := by rw [hk]; exact List.getElem?_eq_getElem h2
    have hb : bndEdge edges i = some (if i < 0 then (edges[k].2, edges[k].1) else edges[k]) := by
      rw [bndEdge, hedge]; rfl
    unfold bndCorners
    rw [hb]
    simp only
    generalize hx : (if i < 0 then (edges[k].2, edges[k].1) else edges[k]) = e
    have hends : ∀ v, (v = e.1 ∨ v = e.2) ↔ (v = edges[k].1 ∨ v = edges[k].2) := by
      intro v
      rw [← hx]
      split
      · exact or_comm
      · exact Iff.rfl
    obtain ⟨hn1, hm1⟩ := pushNew_spec acc e.1 hn
    obtain ⟨hn2, hm2⟩ := pushNew_spec _ e.2 hn1
    obtain ⟨p, h3, h4, h5⟩ := bndCorners_spec (is := is) (fun j hj => he j (by simp [hj])) hn2
    refine ⟨p, h3, h4, fun v => ?_⟩
    rw [h5, hm2, hm1]
    constructor
    · rintro (((h | h) | h) | ⟨j, hj, h⟩)
      · exact Or.inl h
      · exact Or.inr ⟨i, by simp, k, _, h1, List.getElem?_eq_getElem h2, (hends v).1 (Or.inl h)⟩
      · exact Or.inr ⟨i, by simp, k, _, h1, List.getElem?_eq_getElem h2, (hends v).1 (Or.inr h)⟩
      · exact Or.inr ⟨j, by simp [hj], h⟩
    · rintro (h | ⟨j, hj, k', e', h6, h7, h8⟩)
      · exact Or.inl (Or.inl (Or.inl h))
      · rw [List.mem_cons] at hj
        rcases hj with rfl | hj
        · have hkk : k' = k := by rw [← bndIndex_of_refersTo h6, ← hk]
          subst hkk
          rw [List.getElem?_eq_getElem h2] at h7
          rw [← Option.some.inj h7] at h8
          rcases (hends v).2 h8 with h | h
          · exact Or.inl (Or.inl (Or.inr h))
          · exact Or.inl (Or.inr h)
        · exact Or.inr ⟨j, hj, k', e', h6, h7, h8⟩

/-! ### Elements -/

theorem modify_mid {α : Type} (f : α → α) (x : α) (R : List α) : ∀ (D : List α),
    (D ++ x :: R).modify D.length f = D ++ f x :: R
  | [] => by simp
  | d :: D => by
    simp only [List.cons_append, List.length_cons, List.modify_succ_cons]
    rw [modify_mid f x R D]

theorem push_reads (D R : List (List (List Int))) (cur : List (List Int)) (cs : List (List Int)) (p : List Int)
    (ls : BLines C) : ((⟨D ++ cur :: R, cs⟩ : BndElems).push D.length p).Reads ls ⟨D ++ (cur ++ [p]) :: R, cs⟩ ls := by
  unfold BndElems.push
  rw [if_pos (by simp)]
  simp only [modify_mid]
  exact BndR.Reads.done _ _

/-- The polygon of a face. -/
def FacePolygon (edges : List (Int × Int)) (faces : List (List Int)) (f : Int) (p : List Int) : Prop :=
  (faces[bndIndex f]?).bind (fun q => bndCorners edges q []) = some p

theorem readPolyhedron_reads {edges : List (Int × Int)} {faces : List (List Int)} {D R : List (List (List Int))}
    {cs : List (List Int)} : ∀ {is : List Int} {ps : List (List Int)}, List.Forall₂ (FacePolygon edges faces) is ps →
    ∀ {cur : List (List Int)} {ls rest : BLines C}, Lays (is.map .int) ls rest →
    (readPolyhedron edges faces D.length is.length ⟨D ++ cur :: R, cs⟩).Reads ls ⟨D ++ (cur ++ ps) :: R, cs⟩ rest
  | [], _, .nil, cur, ls, rest, h => by
    obtain rfl : ls = rest := h
    rw [List.append_nil]
    exact BndR.Reads.done _ _
  | i :: is, _, .cons (b := p) (l₂ := ps) hp hps, cur, ls, rest, h => by
    obtain ⟨mid, h1, h2⟩ := Lays.append (ws := [.int i]) h
    refine (getLong_reads h1).andThen ?_
    unfold FacePolygon at hp
    rw [hp]
    simp only
    refine (push_reads D R cur cs p mid).andThen ?_
    have := readPolyhedron_reads (D := D) (R := R) (cs := cs) hps (cur := cur ++ [p]) h2
    rw [List.append_assoc] at this
    exact this

/-- How a segment is written. -/
def segWords (s : List Int) : List (BWord C) := .int 10 :: .int s.length :: s.map .int

/-- How a contact is written. -/
def contactWords (c : List Int) : List (BWord C) := .int 2 :: c.map .int

theorem readElements_segs {edges : List (Int × Int)} {faces : List (List Int)} (m : Nat) :
    ∀ {segs : List (List Int)} {polys : List (List (List Int))},
    List.Forall₂ (fun s ps => List.Forall₂ (FacePolygon edges faces) s ps) segs polys →
    ∀ {D : List (List (List Int))} {ls mid rest : BLines C} {x : BndElems × Bool}, Lays (segs.flatMap segWords) ls mid →
    (readElements edges faces m (D.length + segs.length) ⟨D ++ polys ++ List.replicate m [], []⟩).Reads mid x rest →
    (readElements edges faces (segs.length + m) D.length ⟨D ++ List.replicate (segs.length + m) [], []⟩).Reads ls x rest
  | [], _, .nil, D, ls, mid, rest, x, h, h' => by
    obtain rfl : ls = mid := h
    simpa using h'
  | s :: segs, _, .cons (b := ps) (l₂ := polys) hs hss, D, ls, mid, rest, x, h, h' => by
    obtain ⟨m1, h1, h2⟩ := Lays.append h
    obtain ⟨m2, h3, m3, h4, h5⟩ := h1
    have hn : (s :: segs).length + m = (segs.length + m) + 1 := by simp; omega
    rw [hn, List.replicate_succ]
    have hE : (readElement edges faces D.length ⟨D ++ [] :: List.replicate (segs.length + m) [], []⟩).Reads ls
        (⟨D ++ ps :: List.replicate (segs.length + m) [], []⟩, false) m1 := by
      unfold BndR.Reads readElement
      rw [h3]
      exact (getSize_reads (n := s.length) ⟨m3, h4, rfl⟩).andThen
        ((readPolyhedron_reads (cur := []) hs h5).andThen (BndR.Reads.done _ _))
    refine hE.andThen ?_
    have := readElements_segs m hss (D := D ++ [ps]) (ls := m1) (mid := mid) (rest := rest) (x := x) h2 (by
      simpa [Nat.add_assoc, Nat.add_comm 1] using h')
    simpa using this

theorem readElements_contacts {edges : List (Int × Int)} {faces : List (List Int)} {D : List (List (List Int))} :
    ∀ {contacts : List (List Int)}, (∀ c ∈ contacts, c.length = 3) → ∀ {cs : List (List Int)} {i : Nat}
    {ls rest : BLines C}, Lays (contacts.flatMap contactWords) ls rest →
    (readElements edges faces contacts.length i ⟨D ++ List.replicate contacts.length [], cs⟩).Reads ls
      (⟨D, cs ++ contacts⟩, false) rest
  | [], _, cs, i, ls, rest, h => by
    obtain rfl : ls = rest := h
    simp only [List.length_nil, List.replicate_zero, List.append_nil, readElements]
    exact BndR.Reads.done _ _
  | c :: contacts, hc, cs, i, ls, rest, h => by
    obtain ⟨m1, h1, h2⟩ := Lays.append h
    obtain ⟨m2, h3, h4⟩ := h1
    have hE : (readElement edges faces i ⟨D ++ List.replicate (contacts.length + 1) [], cs⟩).Reads ls
        (⟨D ++ List.replicate contacts.length [], cs ++ [c]⟩, false) m1 := by
      unfold BndR.Reads readElement
      rw [h3]
      have := times_long (C := C) h4
      rw [hc c (by simp)] at this
      refine this.andThen ?_
      unfold BndElems.contact
      rw [List.replicate_succ', ← List.append_assoc, List.dropLast_concat]
      exact BndR.Reads.done _ _
    refine hE.andThen ?_
    have := readElements_contacts (edges := edges) (faces := faces) (contacts := contacts)
        (fun d hd => hc d (by simp [hd])) (D := D) (cs := cs ++ [c]) (i := i + 1) h2
    rw [List.append_assoc] at this
    exact this

/-! ### Regions -/

/-- The face of contact element `e`. -/
def contactOf (edges : List (Int × Int)) (E : BndElems) (e : Nat) : List Int :=
  ((E.contacts[e - E.domain.length]?).bind (fun c => bndCorners edges c [])).getD []

/-- What a region changes. -/
def regStep (edges : List (Int × Int)) (E : BndElems) (R : BndRegions) (r : BndRegion) : BndRegions :=
  if r.material = "Contact" then
    ⟨R.segments, R.names ++ [r.name], R.groups.modify R.names.length (· ++ r.elems.map (contactOf edges E))⟩
  else ⟨r.elems.foldl (fun s e => s.set e (r.name, r.material)) R.segments, R.names, R.groups⟩

theorem readMaterial_reads {name material : String} : ∀ {es : List Nat} {R : BndRegions},
    (∀ e ∈ es, e < R.segments.length) → ∀ {ls rest : BLines C}, Lays (es.map fun (e : Nat) => .int e) ls rest →
    (readMaterial name material es.length R).Reads ls
      ⟨es.foldl (fun s e => s.set e (name, material)) R.segments, R.names, R.groups⟩ rest
  | [], R, _, ls, rest, h => by
    obtain rfl : ls = rest := h
    exact BndR.Reads.done _ _
  | e :: es, R, he, ls, rest, h => by
    obtain ⟨mid, h1, h2⟩ := Lays.append (ws := [.int e]) h
    refine (getSize_reads h1).andThen ?_
    rw [if_pos (he e (by simp))]
    exact readMaterial_reads (R := { R with segments := R.segments.set e (name, material) })
      (fun e' h' => by simpa using he e' (by simp [h'])) h2

theorem readContact_reads {dim : Nat} (hdim : dim ≠ 2) {edges : List (Int × Int)} {E : BndElems} :
    ∀ {es : List Nat} {R : BndRegions}, R.names.length - 1 < R.groups.length →
    (∀ e ∈ es, E.domain.length ≤ e ∧ ∃ c, E.contacts[e - E.domain.length]? = some c ∧ EdgesExist edges c) →
    ∀ {ls rest : BLines C}, Lays (es.map fun (e : Nat) => .int e) ls rest →
    (readContact dim edges E es.length R).Reads ls
      ⟨R.segments, R.names, R.groups.modify (R.names.length - 1) (· ++ es.map (contactOf edges E))⟩ rest
  | [], R, hg, _, ls, rest, h => by
    obtain rfl : ls = rest := h
    have : R.groups.modify (R.names.length - 1) (· ++ [].map (contactOf edges E)) = R.groups := by
      simp only [List.map_nil, List.append_nil]
      exact List.modify_id _ _
    rw [this]
    exact BndR.Reads.done _ _
  | e :: es, R, hg, he, ls, rest, h => by
    obtain ⟨mid, h1, h2⟩ := Lays.append (ws := [.int e]) h
    obtain ⟨h3, c, h4, h5⟩ := he e (by simp)
    obtain ⟨p, h6, -, -⟩ := bndCorners_spec h5 List.nodup_nil
    have hc : contactOf edges E e = p := by simp [contactOf, h4, h6]
    refine (getSize_reads h1).andThen ?_
    rw [if_pos ⟨h3, hg⟩, h4]
    simp only [Option.bind_some, contactFace, if_neg hdim, h6]
    have := readContact_reads hdim (edges := edges) (E := E) (es := es)
      (R := { R with groups := R.groups.modify (R.names.length - 1) (· ++ [p]) }) (by simpa using hg)
      (fun e' h' => he e' (by simp [h'])) h2
    simp only [List.modify_modify_eq] at this
    simpa [hc, Function.comp_def] using this

end VG
