import Verif.Lemmas.BndMesh
import Verif.Lemmas.Erase
import Mathlib.Data.List.Infix

/-! What the reader of .bnd files gets from a file which is shown by the lines. -/

namespace VG

variable {C : Type}

theorem has_iff (s : String) (w : BWord C) : w.has s = true ↔ w.Contains s := by
  have htext : ∀ t : String, hasText s t = true ↔ ∃ a b, t.toList = a ++ s.toList ++ b := by
    intro t
    unfold hasText
    rw [List.any_eq_true]
    constructor
    · rintro ⟨r, hr, hp⟩
      rw [List.mem_tails] at hr
      rw [List.isPrefixOf_iff_prefix] at hp
      obtain ⟨a, ha⟩ := hr
      obtain ⟨b, hb⟩ := hp
      exact ⟨a, b, by rw [List.append_assoc, hb, ha]⟩
    · rintro ⟨a, b, h⟩
      refine ⟨s.toList ++ b, ?_, ?_⟩
      · rw [List.mem_tails]
        exact ⟨a, by rw [← List.append_assoc, h]⟩
      · rw [List.isPrefixOf_iff_prefix]
        exact List.prefix_append _ _
  cases w with
  | word t =>
    show hasText s t = true ↔ _
    rw [htext]
    constructor
    · rintro ⟨a, b, h⟩
      exact ⟨t, a, b, Or.inl rfl, h⟩
    · rintro ⟨t', a, b, h | h, h'⟩
      · obtain rfl := BWord.word.inj h
        exact ⟨a, b, h'⟩
      · cases h
  | name t =>
    show hasText s t = true ↔ _
    rw [htext]
    constructor
    · rintro ⟨a, b, h⟩
      exact ⟨t, a, b, Or.inr rfl, h⟩
    · rintro ⟨t', a, b, h | h, h'⟩
      · cases h
      · obtain rfl := BWord.name.inj h
        exact ⟨a, b, h'⟩
  | int i => simp [BWord.has, BWord.Contains]
  | real c => simp [BWord.has, BWord.Contains]
  | count n => simp [BWord.has, BWord.Contains]

theorem any_has {s : String} {l : List (BWord C)} : l.any (·.has s) = true ↔ ∃ w ∈ l, w.Contains s := by
  rw [List.any_eq_true]
  simp only [has_iff]

theorem no_has {s : String} {l : List (BWord C)} (h : ∀ w ∈ l, ¬ w.Contains s) : l.any (·.has s) = false := by
  rw [Bool.eq_false_iff]
  intro h'
  obtain ⟨w, h1, h2⟩ := any_has.1 h'
  exact h w h1 h2

theorem findSome_split {α β : Type} {p : α → Option β} {a b : List α} {x : α} {y : β} (ha : ∀ z ∈ a, p z = none)
    (hx : p x = some y) : (a ++ x :: b).findSome? p = some y := by
  rw [List.findSome?_append, List.findSome?_eq_none_iff.2 ha]
  simp [hx]

theorem lineCount_reads {l : List (BWord C)} {n : Nat} (h : HasCount l n) (ls : BLines C) :
    (lineCount l).Reads ls n ls := by
  obtain ⟨a, b, rfl, ha⟩ := h
  unfold lineCount
  rw [findSome_split (x := BWord.count n) (y := n)]
  · exact BndR.Reads.done _ _
  · intro z hz
    cases z with
    | count k => exact absurd hz (ha k)
    | _ => rfl
  · rfl

theorem section_reads {title : String} {n : Nat} {ws : List (BWord C)} {ls rest : BLines C}
    (h : ShowsSection title n ws ls rest) {bl : BLines C} (hbl : ∀ l ∈ bl, l = []) :
    ∃ mid bl', (∀ l ∈ bl', l = []) ∧ (seekCount title).Reads (bl ++ ls) n mid ∧ Lays ws mid (bl' ++ rest) := by
  obtain ⟨gap, head, body, rfl, h1, h2, h3, h4⟩ := h
  obtain ⟨bl', h5, h6⟩ := lays_body rest ws h4
  refine ⟨body ++ rest, bl', h5, ?_, h6⟩
  rw [← List.append_assoc]
  refine (seekLine_reads (any_has.2 h2) (fun l hl => ?_) (body ++ rest)).andThen (lineCount_reads h3 _)
  rcases List.mem_append.1 hl with hl | hl
  · rw [hbl l hl]; rfl
  · exact no_has (h1 l hl)

theorem entry_reads [DecidableEq C] {key : String} {n : Nat} {ls rest : BLines C} (h : ShowsEntry key n ls rest)
    {A : Type} {f : Nat → BndR C A} {a : A} {out : BLines C} (hf : (f n).Reads rest a out) :
    ((seekWord key).andThen fun _ => skipWord.andThen fun _ => getSize.andThen f).Reads ls a out := by
  obtain ⟨pre, before, x, after, more, rfl, rfl, h1, h2⟩ := h
  refine (seekWord_reads h2 h1 more).andThen ?_
  have hs : (skipWord : BndR C Unit).Reads ((x :: .int n :: after) :: more) () ((.int n :: after) :: more) := rfl
  refine hs.andThen ?_
  exact (getSize_reads (n := n) ⟨_, rfl, rfl⟩).andThen hf

theorem trimBlanks_padded {raw name : String} (h : Padded raw name) : trimBlanks raw = name := by
  obtain ⟨p, q, h1, h2, h3, h4⟩ := h
  have hb : ∀ c, (c == ' ' || c == '\n' || c == '\t') = true ↔ IsBlank c := by
    intro c
    simp [IsBlank, or_assoc]
  have hp : ∀ c ∈ p, (c == ' ' || c == '\n' || c == '\t') = true := fun c hc => (hb c).2 (h2 c (by simp [hc]))
  have hq : ∀ c ∈ q, (c == ' ' || c == '\n' || c == '\t') = true := fun c hc => (hb c).2 (h2 c (by simp [hc]))
  unfold trimBlanks
  simp only
  rw [h1, List.append_assoc, List.dropWhile_append_of_pos hp]
  have key : (List.dropWhile (fun c => c == ' ' || c == '\n' || c == '\t') (name.toList ++ q)).reverse.dropWhile
      (fun c => c == ' ' || c == '\n' || c == '\t') = name.toList.reverse := by
    rcases hn : name.toList with _ | ⟨c, cs⟩
    · rw [List.nil_append, List.dropWhile_eq_nil_iff.2 hq]
      rfl
    · have hc : ¬ ((c == ' ' || c == '\n' || c == '\t') = true) := by
        rw [hb]
        exact h3 c (by rw [hn]; rfl)
      rw [List.cons_append, List.dropWhile_cons_of_neg (p := fun c => c == ' ' || c == '\n' || c == '\t') hc, ← List.cons_append, List.reverse_append,
        List.dropWhile_append_of_pos (fun x hx => hq x (List.mem_reverse.1 hx))]
      rcases hr : (c :: cs).reverse with _ | ⟨d, ds⟩
      · rfl
      · have hd : ¬ ((d == ' ' || d == '\n' || d == '\t') = true) := by
          rw [hb]
          apply h4 d
          rw [hn, ← List.reverse_reverse (c :: cs), hr, List.getLast?_reverse]
          rfl
        rw [List.dropWhile_cons_of_neg (p := fun c => c == ' ' || c == '\n' || c == '\t') hd]
  rw [key, List.reverse_reverse, String.ofList_toList]

theorem region_reads [DecidableEq C] {dim : Nat} (hdim : dim ≠ 2) {edges : List (Int × Int)} {E : BndElems}
    {R : BndRegions} {r : BndRegion} {ls rest : BLines C} (h : ShowsRegion r ls rest) {bl : BLines C}
    (hbl : ∀ l ∈ bl, l = []) (hseg : R.segments.length = E.domain.length)
    (hr : if r.material = "Contact" then
        ∀ e ∈ r.elems, E.domain.length ≤ e ∧ ∃ c, E.contacts[e - E.domain.length]? = some c ∧ EdgesExist edges c
      else ∀ e ∈ r.elems, e < E.domain.length)
    (hg : r.material = "Contact" → R.names.length < R.groups.length) :
    ∃ l bl' mid, (∀ l ∈ bl', l = []) ∧ (seekLine "Region").Reads (bl ++ ls) l mid ∧
      (readRegion dim edges E R l).Reads mid (regStep edges E R r) (bl' ++ rest) := by
  obtain ⟨gap, head, raw, gap', before, mid, rfl, h1, h2, h3, h4, h5, h6, h7, h8⟩ := h
  obtain ⟨m2, bl', h9, h10, h11⟩ := section_reads h8 (bl := []) (by simp)
  refine ⟨head, bl', gap' ++ (before ++ [.word "=", .word r.material]) :: mid, h9, ?_, ?_⟩
  · rw [← List.append_assoc]
    refine seekLine_reads (any_has.2 h2) (fun l hl => ?_) _
    rcases List.mem_append.1 hl with hl | hl
    · rw [hbl l hl]; rfl
    · exact no_has (h1 l hl)
  · obtain ⟨a, b, rfl, ha⟩ := h3
    have hname : (lineName (a ++ .name raw :: b)).Reads
        (gap' ++ (before ++ [.word "=", .word r.material]) :: mid) r.name
        (gap' ++ (before ++ [.word "=", .word r.material]) :: mid) := by
      unfold lineName
      rw [findSome_split (x := BWord.name raw) (y := raw)]
      · simp only [trimBlanks_padded h4]
        exact BndR.Reads.done _ _
      · intro z hz
        cases z with
        | name k => exact absurd hz (ha k)
        | _ => rfl
      · rfl
    refine hname.andThen ?_
    refine (seekLine_reads (any_has.2 ?_) (fun l hl => no_has (h5 l hl)) mid).andThen ?_
    · obtain ⟨w, hw, hw'⟩ := h6
      exact ⟨w, List.mem_append_left _ hw, hw'⟩
    have hmat : (lineMaterial (before ++ [.word "=", .word r.material])).Reads mid r.material mid := by
      unfold lineMaterial
      rw [List.dropWhile_append_of_pos]
      · rfl
      · intro w hw
        exact decide_eq_true fun h => h7 (h ▸ hw)
    refine hmat.andThen ?_
    refine h10.andThen ?_
    unfold regStep
    by_cases hc : r.material = "Contact"
    · rw [if_pos hc] at hr ⊢
      rw [if_pos hc]
      have := readContact_reads hdim (es := r.elems) (E := E) (edges := edges)
        (R := { R with names := R.names ++ [r.name] }) (by simpa using hg hc) hr h11
      simpa using this
    · rw [if_neg hc] at hr ⊢
      rw [if_neg hc]
      exact readMaterial_reads (fun e he => by rw [hseg]; exact hr e he) h11

/-- Number of contact regions. -/
def contactCount (rs : List BndRegion) : Nat := (rs.filter fun r => r.material = "Contact").length

theorem foldl_set_length {α : Type} (v : α) : ∀ (es : List Nat) (l : List α),
    (es.foldl (fun s e => s.set e v) l).length = l.length
  | [], _ => rfl
  | e :: es, l => by
    rw [List.foldl_cons, foldl_set_length]
    simp

theorem regStep_sizes (edges : List (Int × Int)) (E : BndElems) (R : BndRegions) (r : BndRegion) :
    (regStep edges E R r).segments.length = R.segments.length ∧
    (regStep edges E R r).groups.length = R.groups.length ∧
    (regStep edges E R r).names.length = R.names.length + contactCount [r] := by
  unfold regStep contactCount
  split
  · rename_i h; simp [h]
  · rename_i h; simp [h, foldl_set_length]

theorem contactCount_cons (r : BndRegion) (rs : List BndRegion) :
    contactCount (r :: rs) = contactCount [r] + contactCount rs := by
  unfold contactCount
  rw [← List.length_append, ← List.filter_append]
  rfl

theorem regions_reads [DecidableEq C] {dim : Nat} (hdim : dim ≠ 2) {edges : List (Int × Int)} {E : BndElems} :
    ∀ {rs : List BndRegion} {R : BndRegions} {ls : BLines C}, ShowsRegions rs ls → ∀ {bl : BLines C},
    (∀ l ∈ bl, l = []) → R.segments.length = E.domain.length →
    (∀ r ∈ rs, if r.material = "Contact" then
        ∀ e ∈ r.elems, E.domain.length ≤ e ∧ ∃ c, E.contacts[e - E.domain.length]? = some c ∧ EdgesExist edges c
      else ∀ e ∈ r.elems, e < E.domain.length) →
    R.names.length + contactCount rs ≤ R.groups.length →
    ∃ rest, (readRegions dim edges E rs.length R).Reads (bl ++ ls) (rs.foldl (regStep edges E) R) rest
  | [], R, ls, _, bl, _, _, _, _ => ⟨_, BndR.Reads.done _ _⟩
  | r :: rs, R, ls, ⟨mid, h1, h2⟩, bl, hbl, hseg, hr, hg => by
    rw [contactCount_cons] at hg
    obtain ⟨l, bl', m, h3, h4, h5⟩ := region_reads hdim h1 hbl hseg (hr r (by simp)) (fun hc => by
      have : contactCount [r] = 1 := by simp [contactCount, hc]
      omega)
    obtain ⟨s1, s2, s3⟩ := regStep_sizes edges E R r
    obtain ⟨rest, h6⟩ := regions_reads hdim (rs := rs) (R := regStep edges E R r) h2 h3 (by rw [s1]; exact hseg)
      (fun r' h' => hr r' (by simp [h'])) (by rw [s2, s3]; omega)
    exact ⟨rest, h4.andThen (h5.andThen h6)⟩

/-- Everything the reader finds in a file. -/
theorem data_reads [DecidableEq C] (ofInt : Int → C) {f : BndFile C} (hf : f.OK) {ls : BLines C} (h : f.ShownBy ls) :
    ∃ polys, List.Forall₂ (fun s ps => List.Forall₂ (FacePolygon f.edges f.faces) s ps) f.segs polys ∧
      readBndData ofInt ls = .ok ⟨3, f.points.map (·.map (coordVal ofInt)), ⟨polys, f.contacts⟩,
        if f.regions.length < polys.length then ⟨List.replicate polys.length ("", ""), [], []⟩ else
        f.regions.foldl (regStep f.edges ⟨polys, f.contacts⟩)
          ⟨List.replicate polys.length ("", ""), [], List.replicate (f.regions.length - polys.length) []⟩⟩ := by
  obtain ⟨l1, l2, l3, l4, l5, l6, e1, e2, s1, s2, s3, s4, sr⟩ := h
  have hpolys : ∃ polys, List.Forall₂ (fun s ps => List.Forall₂ (FacePolygon f.edges f.faces) s ps) f.segs polys := by
    have hone : ∀ s ∈ f.segs, ∀ i ∈ s, ∃ p, FacePolygon f.edges f.faces i p := by
      intro s hs i hi
      obtain ⟨k, face, h1, h2, h3, -⟩ := hf.segs s hs i hi
      obtain ⟨p, h4, -⟩ := bndCorners_spec h3 List.nodup_nil
      exact ⟨p, by unfold FacePolygon; rw [bndIndex_of_refersTo h1, h2]; exact h4⟩
    have hall : ∀ {α β : Type} {Q : α → β → Prop} {l : List α}, (∀ a ∈ l, ∃ b, Q a b) → ∃ m, List.Forall₂ Q l m := by
      intro α β Q l
      induction l with
      | nil => exact fun _ => ⟨[], .nil⟩
      | cons a l ih =>
        intro h
        obtain ⟨b, hb⟩ := h a (by simp)
        obtain ⟨m, hm⟩ := ih fun a' h' => h a' (by simp [h'])
        exact ⟨b :: m, .cons hb hm⟩
    exact hall fun s hs => hall (hone s hs)
  obtain ⟨polys, hp⟩ := hpolys
  have hlen : f.segs.length = polys.length := hp.length_eq
  refine ⟨polys, hp, ?_⟩
  obtain ⟨m1, b1, hb1, r1, y1⟩ := section_reads s1 (bl := []) (by simp)
  obtain ⟨m2, b2, hb2, r2, y2⟩ := section_reads s2 hb1
  obtain ⟨m3, b3, hb3, r3, y3⟩ := section_reads s3 hb2
  obtain ⟨m4, b4, hb4, r4, y4⟩ := section_reads s4 hb3
  have hpoints : (readBndPoints ofInt 3).Reads l2 (f.points.map (·.map (coordVal ofInt))) (b1 ++ l3) := by
    refine BndR.Reads.andThen (ls := l2) r1 ?_
    refine times_reads (w := fun p => p.map coordWord) (fun p hp' ls rest hl => ?_) y1
    have := times_coord (ofInt := ofInt) hl
    rw [hf.coords p hp'] at this
    exact this
  have hedges : (readBndEdges : BndR C _).Reads (b1 ++ l3) f.edges (b2 ++ l4) := by
    refine r2.andThen ?_
    have := times_reads (r := (getLong.andThen fun a => getLong.andThen fun b => .done (a, b) : BndR C (Int × Int)))
      (w := fun e : Int × Int => [.int e.1, .int e.2]) (v := id) (xs := f.edges) (fun e _ ls rest hl => ?_) y2
    · rw [List.map_id] at this
      exact this
    · obtain ⟨m, h1, h2⟩ := Lays.append (ws := [.int e.1]) hl
      exact (getLong_reads h1).andThen ((getLong_reads h2).andThen (BndR.Reads.done _ _))
  have hfaces : (readBndFaces : BndR C _).Reads (b2 ++ l4) f.faces (b3 ++ l5) := by
    refine r3.andThen ?_
    have := times_reads (r := (getSize.andThen fun k => BndR.times getLong k : BndR C (List Int)))
      (w := fun p : List Int => .int p.length :: p.map .int) (v := id) (xs := f.faces) (fun p _ ls rest hl => ?_) y3
    · rw [List.map_id] at this
      exact this
    · obtain ⟨m, h1, h2⟩ := Lays.append (ws := [.int p.length]) hl
      exact (getSize_reads h1).andThen (times_long h2)
  have helems : (readElements f.edges f.faces (f.segs.length + f.contacts.length) 0
      ⟨List.replicate (f.segs.length + f.contacts.length) [], []⟩).Reads m4 (⟨polys, f.contacts⟩, false) (b4 ++ l6) := by
    obtain ⟨m, h1, h2⟩ := y4.append
    have hc := readElements_contacts (edges := f.edges) (faces := f.faces) (D := polys) hf.contacts (cs := [])
      (i := 0 + f.segs.length) h2
    exact readElements_segs f.contacts.length hp (D := []) h1 hc
  have hpos : f.regions.length ≠ 0 := fun h0 => hf.some (List.length_eq_zero_iff.1 h0)
  have hregs : ∃ rest, (readBndRegions 3 f.regions.length f.edges ⟨polys, f.contacts⟩).Reads (b4 ++ l6)
      (if f.regions.length < polys.length then ⟨List.replicate polys.length ("", ""), [], []⟩ else
        f.regions.foldl (regStep f.edges ⟨polys, f.contacts⟩)
        ⟨List.replicate polys.length ("", ""), [], List.replicate (f.regions.length - polys.length) []⟩) rest := by
    unfold readBndRegions
    simp only
    by_cases hfew : f.regions.length < polys.length
    · rw [if_pos hfew, if_pos hfew]
      exact ⟨_, BndR.Reads.done _ _⟩
    · rw [if_neg hfew, if_neg hpos, if_neg hfew]
      have henough := hf.enough.resolve_left (by omega)
      exact regions_reads (dim := 3) (by decide) (edges := f.edges) (E := ⟨polys, f.contacts⟩)
        (R := ⟨List.replicate polys.length ("", ""), [], List.replicate (f.regions.length - polys.length) []⟩) sr hb4
        (by simp) (by simpa [hlen] using hf.regions) (by
          simp only [contactCount, List.length_nil, List.length_replicate]; omega)
  obtain ⟨rest, hregs⟩ := hregs
  unfold readBndData
  have key : ∀ {r : BndR C (BndData C)} {x : BndData C}, r.Reads ls x rest → (r ls).map (·.2) = .ok x := by
    intro r x h
    unfold BndR.Reads at h
    rw [h]
    rfl
  refine key ?_
  refine entry_reads e1 (entry_reads e2 ?_)
  refine hpoints.andThen (hedges.andThen ?_)
  rw [if_pos rfl]
  refine hfaces.andThen (r4.andThen (helems.andThen ?_))
  rw [if_neg (by simp)]
  exact hregs.andThen (BndR.Reads.done _ _)

/-! ### Polygons and faces -/

theorem sort_eq_of_perm {p q : List Int} (h : p.Perm q) : p.insertionSort (· ≤ ·) = q.insertionSort (· ≤ ·) :=
  List.Perm.eq_of_sortedLE List.sortedLE_insertionSort List.sortedLE_insertionSort
    ((sort_perm p).trans (h.trans (sort_perm q).symm))

/-- The corners of a triangle in order. -/
def triKey (a b c : Nat) : List Int := [(a : Int), b, c].insertionSort (· ≤ ·)

theorem triKey_perm (a b c : Nat) : (triKey a b c).Perm [(a : Int), b, c] := sort_perm _

theorem perm_corners {edges : List (Int × Int)} {face p : List Int} {a b c : Nat} (h : HasCorners edges face a b c)
    (hp : p.Nodup) (hv : ∀ v, v ∈ p ↔ IsEnd edges face v) : p.Perm [(a : Int), b, c] := by
  obtain ⟨h1, h2, h3, h4⟩ := h
  rw [List.perm_ext_iff_of_nodup hp (by simp; omega)]
  intro v
  rw [hv, h4]
  simp

/-- The polygon the reader makes of a face. -/
theorem facePolygon_face {f : BndFile C} (hf : f.OK) {s : List Int} {i : Int} (hs : s ∈ f.segs) (hi : i ∈ s)
    {p : List Int} (hp : FacePolygon f.edges f.faces i p) : ∃ k face, RefersTo i k ∧ f.faces[k]? = some face ∧ p.Nodup ∧
      (∀ v, v ∈ p ↔ IsEnd f.edges face v) ∧ ∀ v ∈ p, 0 ≤ v ∧ v.toNat < f.points.length := by
  obtain ⟨k, face, h1, h2, h3, h4⟩ := hf.segs s hs i hi
  obtain ⟨p', h5, h6, h7⟩ := bndCorners_spec h3 List.nodup_nil
  unfold FacePolygon at hp
  rw [bndIndex_of_refersTo h1, h2, Option.bind_some, h5] at hp
  obtain rfl := Option.some.inj hp
  have h8 : ∀ v, v ∈ p' ↔ IsEnd f.edges face v := fun v => by rw [h7]; simp
  refine ⟨k, face, h1, h2, h6, h8, fun v hv => ?_⟩
  obtain ⟨n, rfl, hn⟩ := h4 v ((h8 v).1 hv)
  exact ⟨by omega, by simpa using hn⟩

theorem refersTo_unique {i : Int} {k k' : Nat} (h : RefersTo i k) (h' : RefersTo i k') : k = k' := by
  rw [← bndIndex_of_refersTo h, bndIndex_of_refersTo h']

/-- The faces which polygons come from, and back. -/
theorem polygon_face {f : BndFile C} (hf : f.OK) {polys : List (List (List Int))}
    (h : List.Forall₂ (fun s ps => List.Forall₂ (FacePolygon f.edges f.faces) s ps) f.segs polys) {g : Nat}
    {d : List (List Int)} (hd : polys[g]? = some d) {p : List Int} (hp : p ∈ d) : ∃ face, f.FaceOf g face ∧ p.Nodup ∧
      (∀ v, v ∈ p ↔ IsEnd f.edges face v) ∧ ∀ v ∈ p, 0 ≤ v ∧ v.toNat < f.points.length := by
  obtain ⟨s, h1, h2⟩ := forall₂_getElem?' h hd
  obtain ⟨i, h3, h4⟩ := forall₂_mem' h2 hp
  obtain ⟨k, face, h5, h6, h7⟩ := facePolygon_face hf (List.mem_of_getElem? h1) h3 h4
  exact ⟨face, ⟨s, i, k, h1, h3, h5, h6⟩, h7⟩

theorem face_polygon {f : BndFile C} (hf : f.OK) {polys : List (List (List Int))}
    (h : List.Forall₂ (fun s ps => List.Forall₂ (FacePolygon f.edges f.faces) s ps) f.segs polys) {g : Nat}
    {face : List Int} (hg : f.FaceOf g face) : ∃ d p, polys[g]? = some d ∧ p ∈ d ∧ p.Nodup ∧
      ∀ v, v ∈ p ↔ IsEnd f.edges face v := by
  obtain ⟨s, i, k, h1, h2, h3, h4⟩ := hg
  obtain ⟨d, h5, h6⟩ := forall₂_getElem? h h1
  obtain ⟨p, h7, h8⟩ := forall₂_mem h6 h2
  obtain ⟨k', face', h9, h10, h11, h12, -⟩ := facePolygon_face hf (List.mem_of_getElem? h1) h2 h8
  rw [← refersTo_unique h3 h9, h4] at h10
  obtain rfl := Option.some.inj h10
  exact ⟨d, p, h5, h7, h11, h12⟩

theorem mem_polygons {f : BndFile C} (hf : f.OK) (ht : f.Triangulated) {polys : List (List (List Int))}
    (h : List.Forall₂ (fun s ps => List.Forall₂ (FacePolygon f.edges f.faces) s ps) f.segs polys) {g : Nat}
    {q : List Int} : (g, q) ∈ allPolygons 0 polys ↔ ∃ a b c, f.Triangle g a b c ∧ q = triKey a b c := by
  rw [mem_allPolygons]
  constructor
  · rintro ⟨i, d, p, h1, h2, h3, rfl⟩
    rw [Nat.zero_add] at h1
    subst h1
    obtain ⟨face, h4, h5, h6, -⟩ := polygon_face hf h h2 h3
    obtain ⟨a, b, c, h7⟩ := ht g face h4
    exact ⟨a, b, c, ⟨face, h4, h7⟩, sort_eq_of_perm (perm_corners h7 h5 h6)⟩
  · rintro ⟨a, b, c, ⟨face, h1, h2⟩, rfl⟩
    obtain ⟨d, p, h3, h4, h5, h6⟩ := face_polygon hf h h1
    exact ⟨g, d, p, by omega, h3, h4, (sort_eq_of_perm (perm_corners h2 h5 h6)).symm⟩

theorem good_polygons {f : BndFile C} (hf : f.OK) (ht : f.Triangulated) {polys : List (List (List Int))}
    (h : List.Forall₂ (fun s ps => List.Forall₂ (FacePolygon f.edges f.faces) s ps) f.segs polys)
    {points : List (List C)} (hpts : points.length = f.points.length) :
    ∀ d ∈ polys, ∀ p ∈ d, GoodPolygon points p := by
  intro d hd p hp
  obtain ⟨g, hg⟩ := List.mem_iff_getElem?.1 hd
  obtain ⟨face, h4, h5, h6, h8⟩ := polygon_face hf h hg hp
  obtain ⟨a, b, c, h7⟩ := ht g face h4
  exact ⟨h5, (perm_corners h7 h5 h6).length_eq, by rw [hpts]; exact h8⟩

/-- A polygon which is no triangle. -/
theorem bndSegment_throws {points : List (List C)} {g : Nat} : ∀ {ps : List (List Int)},
    (∀ p ∈ ps, p.Nodup ∧ ∀ i ∈ p, 0 ≤ i ∧ i.toNat < points.length) → (∃ p ∈ ps, p.length ≠ 3) →
    ∀ {done : List (Nat × List Int)} {idxs : List Int} {polys : List (List Int)} {S : BndSt C},
    BInv points done idxs polys S → bndSegment points g ps S = .error .throws
  | [], _, hb, done, idxs, polys, S, h => by simp at hb
  | p :: ps, hp, hb, done, idxs, polys, S, h => by
    rw [bndSegment]
    by_cases hlen : p.length = 3
    · obtain ⟨S', i', p', h1, h2⟩ := bndPolygon_spec h (g := g) (hp p (by simp)).1 hlen (hp p (by simp)).2
      rw [h1]
      refine bndSegment_throws (fun q hq => hp q (by simp [hq])) ?_ h2
      obtain ⟨q, hq, hq'⟩ := hb
      rcases List.mem_cons.1 hq with rfl | hq
      · exact absurd hlen hq'
      · exact ⟨q, hq, hq'⟩
    · have : bndPolygon points g p S = .error .throws := by
        unfold bndPolygon
        simp only [List.length_insertionSort]
        rw [if_pos hlen]
      rw [this]

theorem bndSegments_throws {points : List (List C)} : ∀ {ds : List (List (List Int))},
    (∀ d ∈ ds, ∀ p ∈ d, p.Nodup ∧ ∀ i ∈ p, 0 ≤ i ∧ i.toNat < points.length) → (∃ d ∈ ds, ∃ p ∈ d, p.length ≠ 3) →
    ∀ {g : Nat} {done : List (Nat × List Int)} {idxs : List Int} {polys : List (List Int)} {S : BndSt C},
    BInv points done idxs polys S → bndSegments points g ds S = .error .throws
  | [], _, hb, g, done, idxs, polys, S, h => by simp at hb
  | d :: ds, hp, hb, g, done, idxs, polys, S, h => by
    rw [bndSegments]
    by_cases hlen : ∃ p ∈ d, p.length ≠ 3
    · rw [bndSegment_throws (hp d (by simp)) hlen h]
    · have hgood : ∀ p ∈ d, GoodPolygon points p := fun p hp' =>
        ⟨(hp d (by simp) p hp').1, by by_contra hne; exact hlen ⟨p, hp', hne⟩, (hp d (by simp) p hp').2⟩
      obtain ⟨S1, i1, p1, h4, h5⟩ := bndSegment_spec (g := g) hgood h
      rw [h4]
      refine bndSegments_throws (fun q hq => hp q (by simp [hq])) ?_ h5
      obtain ⟨d', hd, hd'⟩ := hb
      rcases List.mem_cons.1 hd with rfl | hd
      · exact absurd hd' hlen
      · exact ⟨d', hd, hd'⟩

/-! ### What regions say -/

theorem foldl_set_other {α : Type} (v : α) {e : Nat} : ∀ {es : List Nat} (l : List α), e ∉ es →
    (es.foldl (fun s e => s.set e v) l)[e]? = l[e]?
  | [], _, _ => rfl
  | e' :: es, l, h => by
    rw [List.foldl_cons, foldl_set_other v _ (fun h' => h (by simp [h']))]
    exact List.getElem?_set_ne (fun h' => h (by simp [h']))

theorem foldl_set_mem {α : Type} (v : α) {e : Nat} : ∀ {es : List Nat} (l : List α), e ∈ es → e < l.length →
    (es.foldl (fun s e => s.set e v) l)[e]? = some v
  | [], _, h, _ => by simp at h
  | e' :: es, l, h, hl => by
    rw [List.foldl_cons]
    by_cases he : e ∈ es
    · exact foldl_set_mem v _ he (by simpa using hl)
    · rw [foldl_set_other v _ he]
      rcases List.mem_cons.1 h with rfl | h
      · simp [hl]
      · exact absurd h he

theorem regSteps_segments_length {edges : List (Int × Int)} {E : BndElems} : ∀ (rs : List BndRegion) (R : BndRegions),
    (rs.foldl (regStep edges E) R).segments.length = R.segments.length
  | [], _ => rfl
  | r :: rs, R => by
    rw [List.foldl_cons, regSteps_segments_length rs, (regStep_sizes edges E R r).1]

theorem regSteps_other {edges : List (Int × Int)} {E : BndElems} {e : Nat} : ∀ {rs : List BndRegion} (R : BndRegions),
    (∀ r ∈ rs, r.material ≠ "Contact" → e ∉ r.elems) →
    (rs.foldl (regStep edges E) R).segments[e]? = R.segments[e]?
  | [], _, _ => rfl
  | r :: rs, R, h => by
    rw [List.foldl_cons, regSteps_other _ (fun r' h' => h r' (by simp [h']))]
    unfold regStep
    split
    · rfl
    · rename_i hc
      exact foldl_set_other _ _ (h r (by simp) hc)

theorem regStep_mem {edges : List (Int × Int)} {E : BndElems} {e : Nat} {r : BndRegion} {R : BndRegions}
    (hr : r.material ≠ "Contact") (he : e ∈ r.elems) (hl : e < R.segments.length) :
    (regStep edges E R r).segments[e]? = some (r.name, r.material) := by
  unfold regStep
  rw [if_neg hr]
  exact foldl_set_mem _ _ he hl

theorem regSteps_names {edges : List (Int × Int)} {E : BndElems} : ∀ (rs : List BndRegion) (R : BndRegions),
    (rs.foldl (regStep edges E) R).names =
      R.names ++ (rs.filter fun r => r.material = "Contact").map (·.name)
  | [], R => by simp
  | r :: rs, R => by
    rw [List.foldl_cons, regSteps_names rs]
    unfold regStep
    by_cases hc : r.material = "Contact" <;> simp [hc]

theorem regSteps_groups {edges : List (Int × Int)} {E : BndElems} : ∀ {rs : List BndRegion} {R : BndRegions},
    R.names.length + contactCount rs ≤ R.groups.length →
    (∀ (j : Nat) x, R.names.length ≤ j → R.groups[j]? = some x → x = []) →
    (∀ j < R.names.length, (rs.foldl (regStep edges E) R).groups[j]? = R.groups[j]?) ∧
    ∀ (j : Nat) (r : BndRegion), (rs.filter fun r => r.material = "Contact")[j]? = some r →
      (rs.foldl (regStep edges E) R).groups[R.names.length + j]? = some (r.elems.map (contactOf edges E))
  | [], R, _, _ => ⟨fun _ _ => rfl, fun j r h => by simp at h⟩
  | r :: rs, R, hl, he => by
    rw [contactCount_cons] at hl
    obtain ⟨-, s2, s3⟩ := regStep_sizes edges E R r
    by_cases hc : r.material = "Contact"
    · have h1 : contactCount [r] = 1 := by simp [contactCount, hc]
      have hstep : regStep edges E R r = ⟨R.segments, R.names ++ [r.name],
          R.groups.modify R.names.length (· ++ r.elems.map (contactOf edges E))⟩ := by
        unfold regStep
        rw [if_pos hc]
      have hnew : ∀ j, (regStep edges E R r).groups[j]? = if R.names.length = j then
          some (r.elems.map (contactOf edges E)) else R.groups[j]? := by
        intro j
        rw [hstep]
        simp only [List.getElem?_modify]
        split
        · rename_i hj
          subst hj
          have hlt : R.names.length < R.groups.length := by omega
          have := he _ _ (Nat.le_refl _) (List.getElem?_eq_getElem hlt)
          rw [List.getElem?_eq_getElem hlt, this]
          rfl
        · simp
      obtain ⟨ih1, ih2⟩ := regSteps_groups (edges := edges) (E := E) (rs := rs) (R := regStep edges E R r)
        (by rw [s2, s3]; omega) (fun j x hj hx => by
          rw [hnew, if_neg (by rw [s3] at hj; omega)] at hx
          exact he j x (by rw [s3] at hj; omega) hx)
      rw [s3, h1] at ih1 ih2
      rw [List.foldl_cons]
      refine ⟨fun j hj => ?_, fun j r' hr => ?_⟩
      · rw [ih1 j (by omega), hnew, if_neg (by omega)]
      · rw [List.filter_cons_of_pos (by simpa using hc)] at hr
        rcases j with _ | j
        · simp only [List.getElem?_cons_zero, Option.some.injEq] at hr
          subst hr
          rw [Nat.add_zero, ih1 _ (by omega), hnew, if_pos rfl]
        · rw [List.getElem?_cons_succ] at hr
          rw [← ih2 j r' hr]
          congr 1
          omega
    · have h1 : contactCount [r] = 0 := by simp [contactCount, hc]
      have hg : (regStep edges E R r).groups = R.groups ∧ (regStep edges E R r).names = R.names := by
        unfold regStep
        rw [if_neg hc]
        exact ⟨rfl, rfl⟩
      obtain ⟨ih1, ih2⟩ := regSteps_groups (edges := edges) (E := E) (rs := rs) (R := regStep edges E R r)
        (by rw [s2, s3]; omega) (by rw [hg.1, hg.2]; exact he)
      rw [hg.1, hg.2] at ih1
      rw [hg.2] at ih2
      rw [List.foldl_cons, List.filter_cons_of_neg (by simpa using hc)]
      exact ⟨ih1, ih2⟩

end VG
