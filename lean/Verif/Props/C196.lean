import Verif.Apps.Files

/-!
C196: the example server reads no file outside its root, answers well-formed requests as they ask and rejects malformed
ones; but some requests make it panic, and over HTTP/0.9 directories have no index.
-/

namespace Verif.Props.C196
open Verif.Apps

theorem pieces_ne (l : List Char) : pieces l ≠ [] := by
  cases l with
  | nil => exact List.cons_ne_nil _ _
  | cons c l =>
    unfold pieces
    split
    · exact List.cons_ne_nil _ _
    · split <;> exact List.cons_ne_nil _ _

theorem pieces_sep (a b : List Char) : pieces (a ++ '/' :: b) = pieces a ++ pieces b := by
  induction a with
  | nil => rfl
  | cons c a ih =>
    show (if c = '/' then [] :: pieces (a ++ '/' :: b) else _) = (if c = '/' then [] :: pieces a else _) ++ pieces b
    split
    · rw [ih]; rfl
    · show (match pieces (a ++ '/' :: b) with | [] => [[c]] | h :: t => (c :: h) :: t) = _
      rw [ih]
      cases h : pieces a with
      | nil => exact absurd h (pieces_ne a)
      | cons x t => rfl

theorem pieces_plain (v : List Char) (h : '/' ∉ v) : pieces v = [v] := by
  induction v with
  | nil => rfl
  | cons c v ih =>
    unfold pieces
    rw [if_neg (fun e => h (by rw [e]; exact List.mem_cons_self)), ih (fun e => h (List.mem_cons_of_mem _ e))]

theorem pieces_mem (l v : List Char) (h : v ∈ pieces l) : '/' ∉ v := by
  induction l generalizing v with
  | nil =>
    have := List.mem_singleton.mp h
    rw [this]
    exact fun h => (nomatch h)
  | cons c l ih =>
    unfold pieces at h
    split at h
    · rcases List.mem_cons.mp h with h | h
      · rw [h]; exact fun h => (nomatch h)
      · exact ih v h
    · rename_i hc
      cases hp : pieces l with
      | nil => exact absurd hp (pieces_ne l)
      | cons x t =>
        rw [hp] at h
        rcases List.mem_cons.mp h with h | h
        · rw [h]
          intro hm
          rcases List.mem_cons.mp hm with hm | hm
          · exact hc hm.symm
          · exact ih x (by rw [hp]; exact List.mem_cons_self) hm
        · exact ih v (by rw [hp]; exact List.mem_cons_of_mem _ h)

/-- A plain name: no slash, not empty, no `.` and no `..`. -/
structure Plain (v : List Char) : Prop where
  slash : '/' ∉ v
  some : v ≠ []
  dot : v ≠ ['.']
  up : v ≠ ['.', '.']

theorem normals_plain (p v : List Char) (h : v ∈ normals p) : Plain v := by
  obtain ⟨h1, h2⟩ := List.mem_filter.mp h
  obtain ⟨h3, h4⟩ := List.mem_filter.mp h1
  have h2 := of_decide_eq_true h2
  have h4 := of_decide_eq_true h4
  exact ⟨pieces_mem p v h3, h4.1, h4.2, h2⟩

theorem comps_plain (v : List Char) (h : Plain v) : comps v = [v] := by
  unfold comps
  rw [pieces_plain v h.slash]
  simp [h.some, h.dot]

theorem comps_sep (a b : List Char) : comps (a ++ '/' :: b) = comps a ++ comps b := by
  unfold comps
  rw [pieces_sep, List.filter_append]

theorem comps_end (p : List Char) (h : p.getLast? = some '/') (v : List Char) : comps (p ++ v) = comps p ++ comps v := by
  obtain ⟨q, rfl⟩ := List.getLast?_eq_some_iff.mp h
  have e : q ++ ['/'] ++ v = q ++ '/' :: v := by rw [List.append_assoc]; rfl
  rw [e, comps_sep, comps_sep]
  show _ = comps q ++ [] ++ _
  rw [List.append_nil]

theorem comps_push (p v : List Char) (h : Plain v) : comps (push p v) = comps p ++ [v] := by
  unfold push
  split
  · rename_i hp
    rcases hp with hp | hp
    · rw [hp, List.nil_append, comps_plain v h]; rfl
    · rw [comps_end p hp, comps_plain v h]
  · rw [comps_sep, comps_plain v h]

theorem comps_pushes (vs : List (List Char)) (root : List Char) (h : ∀ v ∈ vs, Plain v) : comps (vs.foldl push root) = comps root ++ vs := by
  induction vs generalizing root with
  | nil => exact (List.append_nil _).symm
  | cons v vs ih =>
    show comps (vs.foldl push (push root v)) = _
    rw [ih _ (fun x hx => h x (List.mem_cons_of_mem _ hx)), comps_push root v (h v List.mem_cons_self), List.append_assoc]
    rfl

/-- A path below a directory: it goes on from there by plain names only. -/
def Below (root file : List Char) : Prop := ∃ vs, (∀ v ∈ vs, Plain v) ∧ comps file = comps root ++ vs

/-- The files of URLs are below the root, whatever the URL (and the name of the index). -/
theorem inside (root index path : List Char) : Below root (file3 root index path) :=
  ⟨normals (autoindex path index), fun v hv => normals_plain _ v hv, comps_pushes _ root (fun v hv => normals_plain _ v hv)⟩

/-- So are those of HTTP/0.9 requests, if the index is a plain name. -/
theorem inside09 (root index uri : List Char) (hi : Plain index) : Below root (file09 root index uri) := by
  have h := comps_pushes (normals uri) root (fun v hv => normals_plain _ v hv)
  unfold file09 autoindex
  split
  · rename_i he
    refine ⟨normals uri ++ [index], ?_, ?_⟩
    · intro v hv
      rcases List.mem_append.mp hv with hv | hv
      · exact normals_plain _ v hv
      · rw [List.mem_singleton.mp hv]; exact hi
    · rw [comps_end _ he, h, comps_plain index hi, List.append_assoc]
  · exact ⟨normals uri, fun v hv => normals_plain _ v hv, h⟩

/-- A URL that ends in a slash stands for the index in that directory. -/
theorem directory (root index dir : List Char) (hi : Plain index) :
    comps (file3 root index (dir ++ ['/'])) = comps root ++ normals dir ++ [index] := by
  unfold file3
  rw [comps_pushes _ root (fun v hv => normals_plain _ v hv), List.append_assoc]
  congr 1
  have he : (dir ++ ['/']).getLast? = some '/' := List.getLast?_eq_some_iff.mpr ⟨dir, rfl⟩
  unfold autoindex
  rw [if_pos he]
  unfold normals
  rw [comps_end _ he, comps_plain index hi, List.filter_append, comps_sep]
  show List.filter _ (comps dir ++ []) ++ _ = _
  rw [List.append_nil]
  simp [hi.up]

/-- Over HTTP/0.9 it does not. -/
theorem directory_false : file09 "www".toList "index.html".toList "/docs/".toList = "www/docs".toList ∧
    file09 "www".toList "index.html".toList "/".toList = "www".toList := by decide +kernel

/-! ### Answers -/

/-- How often a field occurs. -/
def count (n : Name) (l : List Hdr) : Nat := l.countP fun h => h.name = n

theorem scan_ok {f g : Found} {l : List Hdr} (h : scan f l = .ok g) :
    count .protocol l = 0 ∧
    (count .scheme l + (if f.scheme.isSome then 1 else 0) ≤ 1) ∧ (count .authority l + (if f.authority.isSome then 1 else 0) ≤ 1) ∧
    (count .path l + (if f.path.isSome then 1 else 0) ≤ 1) ∧ (count .method l + (if f.method.isSome then 1 else 0) ≤ 1) := by
  induction l generalizing f with
  | nil =>
    refine ⟨rfl, ?_, ?_, ?_, ?_⟩ <;>
    · show 0 + _ ≤ 1
      split <;> omega
  | cons x l ih =>
    have hc : ∀ n, count n (x :: l) = count n l + if x.name = n then 1 else 0 := by
      intro n
      unfold count
      rw [List.countP_cons]
      by_cases hx : x.name = n <;> simp [hx]
    simp only [hc]
    unfold scan at h
    split at h
    all_goals
      rename_i hn
      simp only [hn]
    · split at h
      · cases h
      · rename_i hs
        split at h
        · cases h
        · have := ih h
          simp_all
    · split at h
      · cases h
      · rename_i hs
        split at h
        · cases h
        · have := ih h
          simp_all
    · split at h
      · cases h
      · rename_i hs
        split at h
        · cases h
        · have := ih h
          simp_all
    · split at h
      · cases h
      · rename_i hs
        split at h
        · cases h
        · have := ih h
          simp_all
    · cases h
    · have := ih h
      simp_all
    · split at h
      · cases h
      · have := ih h
        simp_all
    · have := ih h
      simp_all

theorem scan_err {f : Found} {l : List Hdr} {o : Out} (h : scan f l = .error o) : o = .panic ∨ ∃ w, o = .malformed w := by
  induction l generalizing f with
  | nil => cases h
  | cons x l ih =>
    unfold scan at h
    split at h
    all_goals first
      | (split at h
         · first
            | (injection h with h; exact Or.inr ⟨_, h.symm⟩)
            | (injection h with h; exact Or.inl h.symm)
         · first
            | exact ih h
            | (split at h
               · injection h with h; exact Or.inl h.symm
               · exact ih h))
      | (injection h with h; exact Or.inr ⟨_, h.symm⟩)
      | exact ih h

/-- A request that is answered has no `:protocol` and none of the four twice. -/
theorem once (w : World) (root index : List Char) (req : List Hdr) (s : Nat) (b p : List Nat) (file : Option (List Char))
    (h : build w root index req = (.reply s b p, file)) :
    count .protocol req = 0 ∧ count .scheme req ≤ 1 ∧ count .authority req ≤ 1 ∧ count .path req ≤ 1 ∧ count .method req ≤ 1 := by
  unfold build at h
  split at h
  · rename_i o ho
    rcases scan_err ho with e | ⟨_, e⟩ <;> rw [e] at h <;> cases h
  · rename_i f hf
    exact scan_ok hf

/-- It reads nothing outside the root. -/
theorem reads_inside (w : World) (root index : List Char) (req : List Hdr) (o : Out) (file : List Char)
    (h : build w root index req = (o, some file)) : Below root file := by
  unfold build at h
  split at h
  · cases h
  · split at h
    · cases h
    · split at h
      · cases h
      · rename_i path query _
        simp only at h
        split at h
        · split at h
          · split at h <;> cases h
          · split at h
            · rw [← Option.some.inj (Prod.mk.inj h).2]; exact inside _ _ _
            · rw [← Option.some.inj (Prod.mk.inj h).2]; exact inside _ _ _
        · cases h

/-- What is read is what is sent, and what is not there is not found. -/
theorem sends (w : World) (root index : List Char) (req : List Hdr) (o : Out) (file : List Char)
    (h : build w root index req = (o, some file)) : ∃ p, o = match w.read file with
      | some data => Out.reply 200 data p
      | none => Out.reply 404 [78, 111, 116, 32, 70, 111, 117, 110, 100, 33] p := by
  unfold build at h
  split at h
  · cases h
  · split at h
    · cases h
    · split at h
      · cases h
      · simp only at h
        split at h
        · split at h
          · split at h <;> cases h
          · split at h
            · rename_i hd
              obtain ⟨e1, e2⟩ := Prod.mk.inj h
              rw [← Option.some.inj e2, hd, ← e1]
              exact ⟨_, rfl⟩
            · rename_i hd
              obtain ⟨e1, e2⟩ := Prod.mk.inj h
              rw [← Option.some.inj e2, hd, ← e1]
              exact ⟨_, rfl⟩
        · cases h

theorem checked_panic {f : Found} (h : checked f = .error .panic) : f.authority = none ∧ ∃ c l, f.host = some (c :: l) := by
  unfold checked at h
  split at h
  · cases h
  · split at h
    · cases h
    · split at h
      · cases h
      · split at h
        · cases h
        · split at h
          · cases h
          · simp only at h
            split at h
            · cases h
            · rename_i hb
              split at h
              · rename_i ha
                refine ⟨ha, ?_⟩
                rw [ha] at hb
                cases hh : f.host with
                | none => rw [hh] at hb; cases hb
                | some v =>
                  cases v with
                  | nil => rw [hh] at hb; cases hb
                  | cons c l => exact ⟨c, l, rfl⟩
              · split at h <;> cases h

theorem scan_no_panic {f : Found} {l : List Hdr} (ht : ∀ h ∈ l, h.name ≠ .priority → h.name ≠ .other → h.text.isSome) : scan f l ≠ .error .panic := by
  induction l generalizing f with
  | nil => intro h; cases h
  | cons x l ih =>
    have hx := ht x List.mem_cons_self
    have ih : ∀ g, scan g l ≠ .error .panic := fun g => ih (fun y hy => ht y (List.mem_cons_of_mem _ hy))
    intro h
    unfold scan at h
    split at h
    all_goals
      rename_i hn
      try rw [hn] at hx
    all_goals first
      | exact ih _ h
      | (split at h
         · first
            | (rename_i e; rw [e] at hx; exact absurd (hx (by decide) (by decide)) (by decide))
            | (cases h; done)
         · first
            | exact ih _ h
            | (split at h
               · rename_i e; rw [e] at hx; exact absurd (hx (by decide) (by decide)) (by decide)
               · exact ih _ h))
      | cases h

theorem scan_authority {f g : Found} {l : List Hdr} (h : scan f l = .ok g) (ha : f.authority.isSome ∨ count .authority l ≠ 0) : g.authority.isSome := by
  induction l generalizing f with
  | nil =>
    injection h with h
    rw [← h]
    exact ha.resolve_right (fun h => h rfl)
  | cons x l ih =>
    have hc : count .authority (x :: l) = count .authority l + if x.name = .authority then 1 else 0 := by
      unfold count
      rw [List.countP_cons]
      by_cases hx : x.name = .authority <;> simp [hx]
    rw [hc] at ha
    unfold scan at h
    split at h
    all_goals
      rename_i hn
      simp only [hn] at ha
    all_goals first
      | exact ih h (by simpa using ha)
      | (split at h
         · cases h
         · first
            | exact ih h (by simpa using ha)
            | (split at h
               · cases h
               · first
                  | exact ih h (by simpa using ha)
                  | exact ih h (Or.inl rfl)))
      | cases h

/-- There is no panic if the fields are in UTF-8, `:authority` is there, the URL can be parsed and no number is given that is too
large. -/
theorem no_panic_partial (w : World) (root index : List Char) (req : List Hdr)
    (ht : ∀ h ∈ req, h.name ≠ .priority → h.name ≠ .other → h.text.isSome) (ha : count .authority req ≠ 0)
    (hu : ∀ u, (w.url u).isSome) (hn : ∀ s n, w.num s = some n → n < 2 ^ 63) : (build w root index req).1 ≠ .panic := by
  unfold build
  split
  · rename_i o ho
    intro e
    have e : o = .panic := e
    rw [e] at ho
    exact scan_no_panic ht ho
  · rename_i f hf
    have hfa := scan_authority hf (Or.inr ha)
    split
    · rename_i o ho
      intro e
      have e : o = .panic := e
      rw [e] at ho
      rw [(checked_panic ho).1] at hfa
      cases hfa
    · rename_i url _
      split
      · rename_i hnone
        have := hu url
        rw [hnone] at this
        cases this
      · simp only
        split
        · split
          · rename_i suffix _
            split
            · rename_i hbig
              cases hx : w.num suffix with
              | none => rw [hx] at hbig; exact absurd hbig (by decide)
              | some n => rw [hx] at hbig; have := hn _ _ hx; exact absurd hbig (by show ¬ n ≥ _; omega)
            · exact fun h => (nomatch h)
          · split <;> exact fun h => (nomatch h)
        · exact fun h => (nomatch h)

/-- A field with these characters. -/
def chars (n : Name) (v : List Char) : Hdr := ⟨n, [], some v⟩

theorem checked_answer (m s a p : List Char) (r : List Nat) (hm : m ≠ []) (hc : m ≠ "CONNECT".toList) (hs : s = "http".toList ∨ s = "https".toList)
    (ha : a ≠ []) (hp : p ≠ []) : checked { method := some m, scheme := some s, authority := some a, path := some p, priority := r } =
      .ok (m, s ++ "://".toList ++ a ++ p) := by
  obtain ⟨c, a, rfl⟩ := List.exists_cons_of_ne_nil ha
  obtain ⟨d, p, rfl⟩ := List.exists_cons_of_ne_nil hp
  unfold checked
  simp only
  rw [if_neg hm, if_neg hc, if_neg (fun h => hs.elim h.1 h.2)]

/-- The answer to a request with a priority: other methods are not allowed, and `GET` is answered with the bytes asked for
or with the file. The priority in the query goes first. -/
theorem answer (w : World) (root index m s a p : List Char) (r : List Nat) (path : List Char) (q : Option (List Nat))
    (hm : m ≠ []) (hc : m ≠ "CONNECT".toList) (hs : s = "http".toList ∨ s = "https".toList) (ha : a ≠ []) (hp : p ≠ [])
    (hu : w.url (s ++ "://".toList ++ a ++ p) = some (path, q)) :
    let o := build w root index [chars .method m, chars .scheme s, chars .authority a, chars .path p, ⟨.priority, r, none⟩]
    (m ≠ "GET".toList → o = (.reply 405 [] (q.getD r), none)) ∧
    (m = "GET".toList → ∀ x n, path = "/stream-bytes/".toList ++ x → w.num x = some n → n < 2 ^ 63 →
      o = (.reply 200 (List.replicate n 0x57) (q.getD r), none)) ∧
    (m = "GET".toList → ∀ x, path = "/stream-bytes/".toList ++ x → w.num x = none → o = (.reply 200 [] (q.getD r), none)) ∧
    (m = "GET".toList → path.take 14 ≠ "/stream-bytes/".toList → o.2 = some (file3 root index path) ∧
      ∃ st b, o.1 = .reply st b (q.getD r)) := by
  have hf : scan {} [chars .method m, chars .scheme s, chars .authority a, chars .path p, ⟨.priority, r, none⟩] =
      .ok { method := some m, scheme := some s, authority := some a, path := some p, priority := r } := rfl
  unfold build
  rw [hf]
  simp only [checked_answer m s a p r hm hc hs ha hp, hu]
  refine ⟨fun h => by rw [if_neg h], ?_, ?_, ?_⟩
  · intro h x n hx hn hl
    have e : strip bytesPrefix path = some x := by rw [hx]; rfl
    rw [if_pos h, e]
    simp only [hn, Option.getD_some]
    rw [if_neg (by omega)]
  · intro h x hx hn
    have e : strip bytesPrefix path = some x := by rw [hx]; rfl
    rw [if_pos h, e]
    simp only [hn, Option.getD_none]
    rw [if_neg (by decide)]
    rfl
  · intro h hx
    have e : strip bytesPrefix path = none := by
      have key : ∀ (pre l : List Char), l.take pre.length ≠ pre → strip pre l = none := by
        intro pre
        induction pre with
        | nil => intro l hl; exact absurd rfl hl
        | cons b pre ih =>
          intro l hl
          cases l with
          | nil => rfl
          | cons d l =>
            unfold strip
            split
            · rename_i hbd
              refine ih l (fun h => hl ?_)
              show d :: l.take pre.length = _
              rw [h, hbd]
            · rfl
      exact key bytesPrefix path hx
    rw [if_pos h, e]
    simp only
    split <;> exact ⟨rfl, _, _, rfl⟩

/-- What lacks a field, or has it empty, is malformed; `CONNECT` and other schemes are answered with an error. -/
theorem rejects (w : World) (root index : List Char) (c : Char) (a : List Char) :
    let https := "https".toList
    let get := "GET".toList
    build w root index [chars .scheme https, chars .authority (c :: a), chars .path ['/']] = (.malformed (.missing .method), none) ∧
    build w root index [chars .method [], chars .scheme https, chars .authority (c :: a), chars .path ['/']] = (.malformed (.empty .method), none) ∧
    build w root index [chars .method "CONNECT".toList, chars .authority (c :: a)] = (.reply 405 [] [], none) ∧
    build w root index [chars .method get, chars .authority (c :: a), chars .path ['/']] = (.malformed (.missing .scheme), none) ∧
    build w root index [chars .method get, chars .scheme "ftp".toList, chars .authority (c :: a), chars .path ['/']] =
      (.reply 400 [73, 110, 118, 97, 108, 105, 100, 32, 115, 99, 104, 101, 109, 101] [], none) ∧
    build w root index [chars .method get, chars .scheme https, chars .path ['/']] = (.malformed (.missing .authority), none) ∧
    build w root index [chars .method get, chars .scheme https, chars .host [], chars .path ['/']] = (.malformed (.empty .host), none) ∧
    build w root index [chars .method get, chars .scheme https, chars .authority [], chars .path ['/']] = (.malformed (.empty .authority), none) ∧
    build w root index [chars .method get, chars .scheme https, chars .authority [], chars .host [], chars .path ['/']] =
      (.malformed (.empty .authority), none) ∧
    build w root index [chars .method get, chars .scheme https, chars .authority (c :: a)] = (.malformed (.missing .path), none) ∧
    build w root index [chars .method get, chars .scheme https, chars .authority (c :: a), chars .path []] = (.malformed (.empty .path), none) :=
  ⟨rfl, rfl, rfl, rfl, rfl, rfl, rfl, rfl, rfl, rfl, rfl⟩

/-- A field with a text. -/
def field (n : Name) (v : String) : Hdr := ⟨n, [], some v.toList⟩

/-- A well-formed request with `host` and without `:authority` makes the server panic, whatever the world; so does one for
2^63 bytes. -/
theorem panic_false (w : World) (root index : List Char) :
    (build w root index [field .method "GET", field .scheme "https", field .path "/", field .host "example.org"]).1 = .panic ∧
    (build { w with url := fun _ => some ("/stream-bytes/9223372036854775808".toList, none), num := fun _ => some (2 ^ 63) } root index
      [field .method "GET", field .scheme "https", field .path "/stream-bytes/9223372036854775808", field .authority "example.org"]).1 = .panic :=
  ⟨rfl, by rfl⟩

/-- Dots that go up are left out; the rest is found below the root. -/
example : file3 "/srv/www".toList "index.html".toList "/../../etc/./passwd".toList = "/srv/www/etc/passwd".toList ∧
    file3 "www/".toList "index.html".toList "/docs/".toList = "www/docs/index.html".toList ∧
    (build ⟨fun _ => some ("/a/".toList, some [117]), fun _ => none, fun f => if f = "www/a/i".toList then some [1, 2] else none⟩ "www".toList "i".toList
      [field .method "GET", field .scheme "https", field .path "/a/", field .authority "h"]) = (.reply 200 [1, 2] [117], some "www/a/i".toList) := by
  decide +kernel

end Verif.Props.C196
