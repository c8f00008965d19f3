import Verif.Migrate.Spec
import Verif.Pico.Props
/-!
# C95: the migration of old installations
-/
namespace Osp.Migrate
open Osp.Install

variable {G B R : Type} {E : Env G B R}

theorem mem_cubaFiles {n : Text} : n ∈ cubaFiles ↔ n = "ontology.cuba.yml".toList ∨ n = "cuba.ontology.yml".toList := by
  simp only [cubaFiles, List.mem_cons, List.not_mem_nil, or_false]

/-- All files can be renamed: those of CUBA stay, the others are moved. -/
theorem moveLoop_ok {ren : Text → Option PyErr} : ∀ (l : List (Text × File B R)), (∀ e ∈ l, e.1 ∉ cubaFiles → ren e.1 = none) →
    moveLoop ren l = (l.filter (fun e => e.1 ∈ cubaFiles), l.filter (fun e => e.1 ∉ cubaFiles), none) := by
  intro l
  induction l with
  | nil => intro _; rfl
  | cons e l ih =>
    intro h
    have ih := ih fun x hx => h x (List.mem_cons_of_mem _ hx)
    by_cases hc : e.1 ∈ cubaFiles
    · simp only [moveLoop, if_pos hc, ih]
      rw [List.filter_cons_of_pos (by simpa using hc), List.filter_cons_of_neg (by simpa using hc)]
    · simp only [moveLoop, if_neg hc, h e List.mem_cons_self hc, ih]
      rw [List.filter_cons_of_neg (by simpa using hc), List.filter_cons_of_pos (by simpa using hc)]

/-- The first file that cannot be renamed. -/
theorem moveLoop_error {ren : Text → Option PyErr} (b : List (Text × File B R)) (e : Text × File B R) (x : PyErr) (hc : e.1 ∉ cubaFiles) (hx : ren e.1 = some x) :
    ∀ (a : List (Text × File B R)), (∀ e ∈ a, e.1 ∉ cubaFiles → ren e.1 = none) →
    moveLoop ren (a ++ e :: b) = (a.filter (fun e => e.1 ∈ cubaFiles) ++ e :: b, a.filter (fun e => e.1 ∉ cubaFiles), some x) := by
  intro a
  induction a with
  | nil => intro _; simp only [List.nil_append, moveLoop, if_neg hc, hx, List.filter_nil]
  | cons y a ih =>
    intro h
    have ih := ih fun x hx => h x (List.mem_cons_of_mem _ hx)
    rw [List.cons_append]
    by_cases hy : y.1 ∈ cubaFiles
    · simp only [moveLoop, if_pos hy, ih]
      rw [List.filter_cons_of_pos (by simpa using hy), List.filter_cons_of_neg (by simpa using hy)]
      rfl
    · simp only [moveLoop, if_neg hy, h y List.mem_cons_self hy, ih]
      rw [List.filter_cons_of_neg (by simpa using hy), List.filter_cons_of_pos (by simpa using hy)]

/-! ### the temporary directory -/

/-- The files that are moved. Proof device; nothing in /repo. -/
def moved (l : List (Text × File B R)) : List (Text × File B R) := l.filter (fun e => e.1 ∉ cubaFiles)

/-- Their paths. Proof device; nothing in /repo. -/
def paths (tmp : Text) (l : List (Text × File B R)) : List Text := (moved l).map (fun e => join tmp e.1)

theorem mem_moved {l : List (Text × File B R)} {e : Text × File B R} : e ∈ moved l ↔ e ∈ l ∧ e.1 ≠ "ontology.cuba.yml".toList ∧ e.1 ≠ "cuba.ontology.yml".toList := by
  unfold moved
  rw [List.mem_filter]
  simp only [decide_eq_true_eq, mem_cubaFiles, not_or]

theorem join_flat {tmp n : Text} (ht : tmp ≠ []) (h : '/' ∉ n) : join tmp n = tmp ++ '/' :: n := by
  unfold join
  rw [if_neg]
  rintro (h1 | h1)
  · cases n with
    | nil => cases h1
    | cons c n => simp only [List.head?_cons, Option.some.injEq] at h1; exact h (h1 ▸ List.mem_cons_self)
  · exact ht h1

theorem join_inj {tmp a b : Text} (ht : tmp ≠ []) (ha : '/' ∉ a) (hb : '/' ∉ b) (h : join tmp a = join tmp b) : a = b := by
  rw [join_flat ht ha, join_flat ht hb] at h
  exact (List.cons.inj (List.append_cancel_left h)).2

theorem entry_unique : ∀ (m : List (Text × File B R)), (m.map (·.1)).Nodup → ∀ a ∈ m, ∀ b ∈ m, a.1 = b.1 → a = b := by
  intro m
  induction m with
  | nil => intro _ a ha; cases ha
  | cons y m ih =>
    intro hm a ha b hb hab
    rw [List.map_cons, List.nodup_cons] at hm
    rcases List.mem_cons.1 ha with ha1 | ha1
    · rcases List.mem_cons.1 hb with hb1 | hb1
      · rw [ha1, hb1]
      · exact absurd (List.mem_map.2 ⟨b, hb1, by rw [← hab, ha1]⟩) hm.1
    · rcases List.mem_cons.1 hb with hb1 | hb1
      · exact absurd (List.mem_map.2 ⟨a, ha1, by rw [hab, hb1]⟩) hm.1
      · exact ih hm.2 a ha1 b hb1 hab

theorem Old.same {l : List (Text × File B R)} (ho : Old l) (d d' : Doc B) (h : Has l d) (h' : Has l d') (hi : d.ident = d'.ident) : d = d' := by
  obtain ⟨n, hn⟩ := h
  obtain ⟨n', hn'⟩ := h'
  have := entry_unique l ho.names _ hn.1 _ hn'.1 (ho.once n n' d d' hn hn' hi)
  cases this
  rfl

theorem overlay_moved {l : List (Text × File B R)} (ho : Old l) {tmp : Text} (ht : tmp ≠ []) (ext : Text → Option (File B R)) {e : Text × File B R} (he : e ∈ moved l) :
    overlay tmp (moved l) ext (join tmp e.1) = some e.2 := by
  unfold overlay
  cases hf : (moved l).find? (fun x => join tmp x.1 = join tmp e.1) with
  | none =>
    have := List.find?_eq_none.1 hf e he
    simp at this
  | some x =>
    have hx := List.mem_of_find?_eq_some hf
    have hj := List.find?_some hf
    simp only [decide_eq_true_eq] at hj
    have hxl := (mem_moved.1 hx).1
    have hel := (mem_moved.1 he).1
    have hn := join_inj ht (ho.flat x hxl) (ho.flat e hel) hj
    rw [entry_unique l ho.names x hxl e hel hn]

theorem readDoc_moved {l : List (Text × File B R)} (ho : Old l) {tmp : Text} (ht : tmp ≠ []) (w : World G B R) {e : Text × File B R} (he : e ∈ moved l) :
    ∃ d, e.2 = .pkg d ∧ Has l d ∧ readDoc E (fresh E tmp (moved l) w) (join tmp e.1) = .ok d := by
  obtain ⟨hm, h1, h2⟩ := mem_moved.1 he
  obtain ⟨d, hd⟩ := ho.pkg e hm h1 h2
  obtain ⟨i, hi⟩ := ho.yml e hm
  refine ⟨d, hd, ⟨e.1, by rw [← hd]; exact hm, h1, h2⟩, ?_⟩
  have hp : filePath E (fresh E tmp (moved l) w) (join tmp e.1) = join tmp e.1 := by
    unfold filePath
    have := join_yml tmp i
    rw [show i ++ dotYml = e.1 from hi.symm] at this
    rw [if_pos this]
  unfold readDoc
  rw [hp]
  have : (fresh E tmp (moved l) w).read E (join tmp e.1) = some (.pkg d) := by
    rw [← hd]
    exact overlay_moved ho ht w.ext he
  rw [this]

theorem docsOf_paths {l : List (Text × File B R)} (ho : Old l) {tmp : Text} (ht : tmp ≠ []) (w : World G B R) {fs : List Text} (hfs : ∀ x, x ∈ fs ↔ x ∈ paths tmp l) (d : Doc B) :
    DocsOf E (fresh E tmp (moved l) w) fs d ↔ Has l d := by
  constructor
  · rintro ⟨f, hf, hd⟩
    obtain ⟨e, he, rfl⟩ := List.mem_map.1 ((hfs f).1 hf)
    obtain ⟨d', -, hh, hd'⟩ := readDoc_moved (E := E) ho ht w he
    rw [hd] at hd'
    cases hd'
    exact hh
  · rintro ⟨n, hn, h1, h2⟩
    have he : (n, File.pkg d) ∈ moved l := mem_moved.2 ⟨hn, h1, h2⟩
    obtain ⟨d', hd', -, hr⟩ := readDoc_moved (E := E) ho ht w he
    cases hd'
    exact ⟨join tmp n, (hfs _).2 (List.mem_map.2 ⟨_, he, rfl⟩), hr⟩

theorem newLoop_fresh {w : World G B R} (hw : w.dir = []) : ∀ (l res : List Text), (∀ f ∈ l, ∃ i, getIdentifier E w f = .ok i) → newLoop E w l res = .ok res := by
  intro l
  induction l with
  | nil => intro res _; rfl
  | cons f l ih =>
    intro res h
    obtain ⟨i, hi⟩ := h f List.mem_cons_self
    have hni : i ∉ w.installed E := by
      unfold World.installed World.packages
      rw [hw]
      exact fun h => (nomatch h)
    simp only [newLoop, hi, if_neg hni]
    exact ih res fun x hx => h x (List.mem_cons_of_mem _ hx)

theorem newPackages_fresh (hE : Fair E) {l : List (Text × File B R)} (ho : Old l) {tmp : Text} (ht : tmp ≠ []) (w : World G B R) :
    ∃ fs, newPackages E (fresh E tmp (moved l) w) (paths tmp l) = .ok fs ∧ ∀ x, x ∈ fs ↔ x ∈ paths tmp l := by
  refine ⟨E.enumF (paths tmp l), newLoop_fresh rfl _ _ fun f hf => ?_, (hE.files _).2⟩
  obtain ⟨e, he, rfl⟩ := List.mem_map.1 hf
  obtain ⟨d, -, -, hd⟩ := readDoc_moved (E := E) ho ht w he
  exact ⟨d.ident, getIdentifier_ok.2 ⟨d, hd, rfl⟩⟩

theorem fresh_installed {tmp : Text} {m : List (Text × File B R)} {w : World G B R} : (fresh E tmp m w).installed E = [] := rfl

/-- Migrating without trouble while moving: what is installed. -/
theorem migrate_moved {tmp : Text} {ren : Text → Option PyErr} {k : Disk G B R} {l : List (Text × File B R)} (hk : k.yml = some (some l)) (hren : ∀ n, ren n = none) :
    migrate E tmp ren k = ({ w := { (install E (fresh E tmp (moved l) k.w) (paths tmp l)).1 with ext := k.w.ext }, yml := none }, (install E (fresh E tmp (moved l) k.w) (paths tmp l)).2) := by
  unfold migrate
  rw [hk]
  simp only [moveLoop_ok l (fun e _ _ => hren e.1)]
  rfl

theorem fresh_good {l : List (Text × File B R)} (ho : Old l) {tmp : Text} (w : World G B R) (hu : Undotted w) : Good (fresh E tmp (moved l) w) := by
  refine ⟨tidy_nil, closed_nil, ?_⟩
  intro t d h
  simp only [fresh, overlay] at h
  split at h
  · rename_i e he
    have hm := mem_moved.1 (List.mem_of_find?_eq_some he)
    have hd : e.2 = .pkg d := Option.some.inj h
    exact (ho.doc d ⟨e.1, by rw [← hd]; exact hm.1, hm.2⟩).2.2.2
  · exact hu t d h

/-- The parser reads the moved files. -/
theorem loads_of_builds {w : World G B R} {dir : List (Text × File B R)} {g g' : G} {docs : List (Doc B)} (h : Pico.Builds E dir g docs g') :
    ∀ order : List Text, (∀ d ∈ docs, d.owl = false) → order.map (readDoc E w) = docs.map .ok → Loads E w g order g' := by
  induction h with
  | nil g =>
    intro order _ ho
    rw [List.map_nil, List.map_eq_nil_iff] at ho
    subst ho
    exact .nil _
  | @yml g g1 g2 d l hd hg _ ih =>
    intro order hf ho
    rw [List.map_cons] at ho
    obtain ⟨f, order', rfl, h1, h2⟩ := List.map_eq_cons_iff.1 ho
    exact .yml h1 hd hg (ih order' (fun x hx => hf x (List.mem_cons_of_mem _ hx)) h2)
  | @rdf g g1 g2 d l c hd _ _ _ _ =>
    intro order hf _
    rw [hf d List.mem_cons_self] at hd
    cases hd

/-- **C95.** Partial: the packages of an old installation, all of which can be moved, whose requirements are among them, and which can be parsed, are installed again, exactly these and
unchanged; the installation is in order, and the old one is gone. Missing: otherwise the packages are lost, see `incomplete_lost`, `failed_migration_loses` and `rename_fails_loses`. -/
theorem migration_keeps_partial (hE : Fair E) (hp : Pico.PathFree E) (tmp : Text) (ht : tmp ≠ []) (ren : Text → Option PyErr) (hren : ∀ n, ren n = none) (k : Disk G B R) (l : List (Text × File B R))
    (hk : k.yml = some (some l)) (hu : Undotted k.w) (ho : Old l) (hc : Complete l) (hpa : Parsable E l) :
    (migrate E tmp ren k).2 = none ∧ (migrate E tmp ren k).1.yml = none ∧
    (∀ d, Has l d → ∃ d', (migrate E tmp ren k).1.w.docOf d.ident = some d' ∧ d'.Same d) ∧
    (∀ i d', (migrate E tmp ren k).1.w.docOf i = some d' → ∃ d, Has l d ∧ d.ident = i ∧ d'.Same d) ∧
    Pico.Sound E (migrate E tmp ren k).1.w.dir (migrate E tmp ren k).1.w.graph := by
  obtain ⟨fs, hf, hfs⟩ := newPackages_fresh hE ho ht k.w
  have hdocs := docsOf_paths (E := E) ho ht k.w hfs
  have hdocs' := docsOf_paths (E := E) (fs := paths tmp l) ho ht k.w (fun _ => Iff.rfl)
  obtain ⟨docs, hm, ha⟩ := hc
  obtain ⟨w', hw'⟩ := install_with_order_succeeds E hE (fresh E tmp (moved l) k.w) (paths tmp l) fs hf
    (fun f hf d hd => (ho.doc d ((hdocs' d).1 ⟨f, hf, hd⟩)).2.1)
    (fun d d' h h' => ho.same d d' ((hdocs d).1 h) ((hdocs d').1 h'))
    ⟨docs, fun d => (hm d).trans (hdocs d).symm, by rw [fresh_installed]; exact ha⟩
    (by
      intro order docs' h1 h2 h3 h4
      rw [fresh_installed] at h4
      obtain ⟨g, dir, hb⟩ := hpa docs' (fun d => (h2 d).trans (hdocs d)) h3 h4
      exact ⟨g, loads_of_builds hb order (fun d hd => (ho.doc d ((hdocs d).1 ((h2 d).1 hd))).1) h1⟩)
    (fun d hd => ⟨(ho.doc d ((hdocs d).1 hd)).2.2.1, fun hw => by rw [(ho.doc d ((hdocs d).1 hd)).1] at hw; cases hw⟩)
  have hgood := fresh_good (E := E) ho (tmp := tmp) k.w hu
  obtain ⟨-, -, h3, h4, -⟩ := install_exact E hE _ _ _ hgood hw'
  rw [migrate_moved hk hren, hw']
  refine ⟨rfl, rfl, ?_, ?_, ?_⟩
  · intro d hd
    obtain ⟨f, hf, hr⟩ := (hdocs' d).2 hd
    obtain ⟨d', hd'⟩ := h4 f hf d hr
    refine ⟨d', hd', ?_⟩
    rcases h3 _ _ hd' with h | ⟨-, f', hf', d'', hr', hi, hs⟩
    · cases h
    · rw [← ho.same d'' d ((hdocs' _).1 ⟨f', hf', hr'⟩) hd hi]
      exact hs
  · intro i d' hd'
    rcases h3 i d' hd' with h | ⟨-, f, hf, d, hr, hi, hs⟩
    · cases h
    · exact ⟨d, (hdocs' d).1 ⟨f, hf, hr⟩, hi, hs⟩
  · show Pico.Sound E w'.dir w'.graph
    refine Pico.sound_install' (filter := newPackages E) (clear := false) (files := paths tmp l) (g := E.cuba) hE hp Pico.sound_nil hgood.undotted (fun _ => rfl) ?_ ?_ hw'
    · intro _ _ _ _ _ _ _
      rfl
    · intro fs' hf' f hfm d hd ho'
      rw [show newPackages E ((fresh E tmp (moved l) k.w).begin E false) (paths tmp l) = newPackages E (fresh E tmp (moved l) k.w) (paths tmp l) from rfl, hf] at hf'
      cases hf'
      rw [(ho.doc d ((hdocs d).1 ⟨f, hfm, hd⟩)).1] at ho'
      cases ho'

/-- The packages of the old installation that remain on the disk. -/
theorem start_after {empty : G} {again : G → R → G} {tmp : Text} {ren : Text → Option PyErr} {k : Disk G B R} (hy : k.yml ≠ none) :
    (start E empty again tmp ren k).1.yml = (migrate E tmp ren k).1.yml ∧ (start E empty again tmp ren k).1.w.dir = (migrate E tmp ren k).1.w.dir ∧
    (start E empty again tmp ren k).2 = (if (migrate E tmp ren k).2 = some .runtimeError then none else (migrate E tmp ren k).2) := by
  obtain ⟨l, hl⟩ := Option.ne_none_iff_exists'.1 hy
  unfold start load
  simp only [hl]
  cases hm : migrate E tmp ren k with
  | mk k' o =>
    cases o with
    | some e =>
      cases e <;> exact ⟨rfl, rfl, rfl⟩
    | none =>
      dsimp only
      cases look k'.w.dir graphXml with
      | none => exact ⟨rfl, rfl, rfl⟩
      | some f => cases f <;> exact ⟨rfl, rfl, rfl⟩

/-- **C95.** Finding: whenever installing the packages again fails, for whatever reason, all packages of the old installation are gone. -/
theorem failed_migration_loses (hE : Fair E) (tmp : Text) (ht : tmp ≠ []) (ren : Text → Option PyErr) (hren : ∀ n, ren n = none) (k : Disk G B R) (l : List (Text × File B R))
    (hk : k.yml = some (some l)) (ho : Old l) (e : PyErr) (h : (migrate E tmp ren k).2 = some e) :
    (migrate E tmp ren k).1.yml = none ∧ (migrate E tmp ren k).1.w.dir = [] := by
  rw [migrate_moved hk hren] at h ⊢
  refine ⟨rfl, ?_⟩
  refine (install_fails_directory_kept E hE _ _ _ e (Prod.ext rfl h)).resolve_right ?_
  rintro ⟨f, hf, d, hd, hcase⟩
  have hh := (docsOf_paths (E := E) (fs := paths tmp l) ho ht k.w (fun _ => Iff.rfl) d).1 ⟨f, hf, hd⟩
  obtain ⟨h1, -, h3, -⟩ := ho.doc d hh
  rcases hcase with ⟨h4, -⟩ | h4
  · rw [h1] at h4; cases h4
  · exact h3 h4

/-- **C95.** Finding: if the requirements of the old packages are not among them (CUBA, which is left behind, does not count), all packages are lost, and importing osp-core raises nothing. -/
theorem incomplete_lost (hE : Fair E) (empty : G) (again : G → R → G) (tmp : Text) (ht : tmp ≠ []) (ren : Text → Option PyErr) (hren : ∀ n, ren n = none) (k : Disk G B R) (l : List (Text × File B R))
    (hk : k.yml = some (some l)) (ho : Old l) (hc : ¬ Complete l) :
    (migrate E tmp ren k).2 = some .runtimeError ∧ (start E empty again tmp ren k).2 = none ∧ (start E empty again tmp ren k).1.yml = none ∧ (start E empty again tmp ren k).1.w.dir = [] := by
  obtain ⟨fs, hf, hfs⟩ := newPackages_fresh hE ho ht k.w
  have hdocs := docsOf_paths (E := E) ho ht k.w hfs
  have hdocs' := docsOf_paths (E := E) (fs := paths tmp l) ho ht k.w (fun _ => Iff.rfl)
  have hi := install_without_order_raises E hE (fresh E tmp (moved l) k.w) (paths tmp l) fs hf
    (fun f hf d hd => (ho.doc d ((hdocs' d).1 ⟨f, hf, hd⟩)).2.1)
    (fun d d' h h' => ho.same d d' ((hdocs d).1 h) ((hdocs d').1 h'))
    (by
      rintro ⟨docs, h1, h2⟩
      rw [fresh_installed] at h2
      exact hc ⟨docs, fun d => (h1 d).trans (hdocs d), h2⟩)
  have hm : (migrate E tmp ren k).2 = some .runtimeError := by rw [migrate_moved hk hren, hi]
  obtain ⟨h1, h2⟩ := failed_migration_loses hE tmp ht ren hren k l hk ho _ hm
  obtain ⟨s1, s2, s3⟩ := start_after (E := E) (empty := empty) (again := again) (tmp := tmp) (ren := ren) (k := k) (by rw [hk]; exact fun h => (nomatch h))
  exact ⟨hm, by rw [s3, hm, if_pos rfl], by rw [s1, h1], by rw [s2, h2]⟩

/-- **C95.** Finding: an old package that requires CUBA, or anything else that is not among the old packages, makes all of them disappear. -/
theorem requirement_outside_lost (hE : Fair E) (empty : G) (again : G → R → G) (tmp : Text) (ht : tmp ≠ []) (ren : Text → Option PyErr) (hren : ∀ n, ren n = none) (k : Disk G B R)
    (l : List (Text × File B R)) (hk : k.yml = some (some l)) (ho : Old l) (d : Doc B) (hd : Has l d) (r : Text) (hr : d.Requires r) (hn : ∀ d', Has l d' → d'.ident ≠ r) :
    (start E empty again tmp ren k).2 = none ∧ ∀ i, (start E empty again tmp ren k).1.w.docOf i = none := by
  obtain ⟨-, h1, -, h2⟩ := incomplete_lost hE empty again tmp ht ren hren k l hk ho (by
    rintro ⟨docs, hm, ha⟩
    obtain ⟨a, b, he⟩ := List.append_of_mem ((hm d).2 hd)
    rcases ha a d b he r hr with h | ⟨d', hd', hi⟩
    · cases h
    · exact hn d' ((hm d').1 (by rw [he]; exact List.mem_append_left _ hd')) hi)
  refine ⟨h1, fun i => ?_⟩
  rw [docOf_eq, h2]
  rfl

/-- **C95.** Finding: if a file cannot be moved, the migration stops and the files moved before are lost; if it is the first (as for a temporary directory on another device), nothing
is changed. The exception is raised unless it is a RuntimeError. -/
theorem rename_fails_loses (tmp : Text) (ren : Text → Option PyErr) (k : Disk G B R) (a b : List (Text × File B R)) (e : Text × File B R) (x : PyErr)
    (hk : k.yml = some (some (a ++ e :: b))) (hc : e.1 ≠ "ontology.cuba.yml".toList ∧ e.1 ≠ "cuba.ontology.yml".toList) (hx : ren e.1 = some x)
    (ha : ∀ y ∈ a, y.1 ≠ "ontology.cuba.yml".toList → y.1 ≠ "cuba.ontology.yml".toList → ren y.1 = none) :
    ∃ left, migrate E tmp ren k = ({ k with yml := some (some (left ++ e :: b)) }, some x) ∧
      ∀ y, y ∈ left ↔ y ∈ a ∧ (y.1 = "ontology.cuba.yml".toList ∨ y.1 = "cuba.ontology.yml".toList) := by
  refine ⟨a.filter (fun e => e.1 ∈ cubaFiles), ?_, fun y => by rw [List.mem_filter, decide_eq_true_eq, mem_cubaFiles]⟩
  unfold migrate
  rw [hk]
  simp only [moveLoop_error b e x (fun h => (mem_cubaFiles.1 h).elim hc.1 hc.2) hx a (fun y hy hn => by
    rw [mem_cubaFiles, not_or] at hn
    exact ha y hy hn.1 hn.2)]

/-- **C95.** After a successful migration, the next processes find the migrated packages and do not migrate again. -/
theorem migrated_once (hE : Fair E) (hp : Pico.PathFree E) (hl : Pico.Reloads E) (empty : G) (again : G → R → G) (tmp tmp' : Text) (ht : tmp ≠ []) (ren ren' : Text → Option PyErr)
    (hren : ∀ n, ren n = none) (k : Disk G B R) (l : List (Text × File B R)) (hk : k.yml = some (some l)) (hu : Undotted k.w) (ho : Old l) (hc : Complete l) (hpa : Parsable E l) :
    let k1 := (start E empty again tmp ren k).1
    let k2 := start E empty again tmp' ren' k1
    k2.2 = none ∧ k2.1.w.dir = k1.w.dir ∧ Pico.Sound E k1.w.dir k2.1.w.graph ∧ k2.1.w.names = k2.1.w.graph := by
  obtain ⟨h1, h2, -, -, h5⟩ := migration_keeps_partial hE hp tmp ht ren hren k l hk hu ho hc hpa
  obtain ⟨s1, s2, -⟩ := start_after (E := E) (empty := empty) (again := again) (tmp := tmp) (ren := ren) (k := k) (by rw [hk]; exact fun h => (nomatch h))
  dsimp only
  generalize hk1 : (start E empty again tmp ren k).1 = k1 at s1 s2
  have hn : k1.yml = none := by rw [s1, h2]
  have hs : start E empty again tmp' ren' k1 = ({ k1 with w := restart E empty k1.w }, none) := by
    unfold start load
    rw [hn]
  rw [← s2] at h5
  obtain ⟨r1, r2, r3, -⟩ := Pico.restart_sound (empty := empty) hl h5
  rw [hs]
  refine ⟨rfl, r3, ?_, ?_⟩
  · show Pico.Sound E k1.w.dir (restart E empty k1.w).graph
    rw [r1]; exact h5
  · show (restart E empty k1.w).names = (restart E empty k1.w).graph
    rw [r1, r2]

/-- **C95.** Without an old installation nothing is migrated. -/
theorem no_migration (empty : G) (again : G → R → G) (tmp : Text) (ren : Text → Option PyErr) (w : World G B R) :
    start E empty again tmp ren { w := w, yml := none } = ({ w := restart E empty w, yml := none }, none) := rfl

/-- **C95.** A process that is killed while it moves the files: those in `a` are in the temporary directory, which is not deleted then. The next process takes what is left for the old
installation: it installs the packages in `b` if their requirements are among them. Finding: those in `a` are not installed. -/
theorem killed_while_moving (hE : Fair E) (hp : Pico.PathFree E) (tmp : Text) (ht : tmp ≠ []) (ren : Text → Option PyErr) (hren : ∀ n, ren n = none) (k : Disk G B R) (a b : List (Text × File B R))
    (hk : k.yml = some (some ((moveLoop ren a).1 ++ b))) (hu : Undotted k.w) (ho : Old (a ++ b)) (hc : Complete b) (hpa : Parsable E b) :
    (migrate E tmp ren k).2 = none ∧ (∀ d, Has b d → ∃ d', (migrate E tmp ren k).1.w.docOf d.ident = some d' ∧ d'.Same d) ∧
    ∀ d, Has a d → (migrate E tmp ren k).1.w.docOf d.ident = none := by
  have hleft : (moveLoop ren a).1 = a.filter (fun e => e.1 ∈ cubaFiles) := by rw [moveLoop_ok a (fun e _ _ => hren e.1)]
  rw [hleft] at hk
  have hsub : ∀ e, e ∈ a.filter (fun e => e.1 ∈ cubaFiles) ++ b → e ∈ a ++ b := fun e he => by
    rcases List.mem_append.1 he with h | h
    · exact List.mem_append_left _ (List.mem_filter.1 h).1
    · exact List.mem_append_right _ h
  have hhas : ∀ d, Has (a.filter (fun e => e.1 ∈ cubaFiles) ++ b) d ↔ Has b d := by
    intro d
    constructor
    · rintro ⟨n, hn, h1, h2⟩
      rcases List.mem_append.1 hn with h | h
      · have := (List.mem_filter.1 h).2
        rw [decide_eq_true_eq, mem_cubaFiles] at this
        exact absurd this (fun h => h.elim h1 h2)
      · exact ⟨n, h, h1, h2⟩
    · rintro ⟨n, hn, h⟩
      exact ⟨n, List.mem_append_right _ hn, h⟩
  have hup : ∀ d, Has b d → Has (a ++ b) d := fun d ⟨n, hn, h⟩ => ⟨n, List.mem_append_right _ hn, h⟩
  have ho' : Old (a.filter (fun e => e.1 ∈ cubaFiles) ++ b) := by
    refine ⟨?_, fun e he => ho.flat e (hsub e he), fun e he => ho.yml e (hsub e he), fun e he => ho.pkg e (hsub e he), fun d hd => ho.doc d (hup d ((hhas d).1 hd)), ?_⟩
    · exact List.Nodup.sublist (List.Sublist.map _ (List.Sublist.append List.filter_sublist (List.Sublist.refl b))) ho.names
    · exact fun n n' d d' h h' => ho.once n n' d d' ⟨hsub _ h.1, h.2⟩ ⟨hsub _ h'.1, h'.2⟩
  obtain ⟨h1, -, h3, h4, -⟩ := migration_keeps_partial hE hp tmp ht ren hren k _ hk hu ho' (by
    obtain ⟨docs, hm, har⟩ := hc
    exact ⟨docs, fun d => (hm d).trans (hhas d).symm, har⟩) (fun docs hm => hpa docs (fun d => (hm d).trans (hhas d)))
  refine ⟨h1, fun d hd => h3 d ((hhas d).2 hd), fun d hd => ?_⟩
  cases hx : (migrate E tmp ren k).1.w.docOf d.ident with
  | none => rfl
  | some d' =>
    exfalso
    obtain ⟨d2, hd2, hi, -⟩ := h4 _ _ hx
    have hd2 := (hhas d2).1 hd2
    obtain ⟨n, hn, hnc⟩ := hd
    obtain ⟨m, hm, hmc⟩ := hd2
    have hnm := ho.once m n d2 d ⟨List.mem_append_right _ hm, hmc⟩ ⟨List.mem_append_left _ hn, hnc⟩ hi
    have hnd := ho.names
    rw [List.map_append, List.nodup_append] at hnd
    exact hnd.2.2 n (List.mem_map.2 ⟨_, hn, rfl⟩) m (List.mem_map.2 ⟨_, hm, rfl⟩) hnm.symm

end Osp.Migrate
