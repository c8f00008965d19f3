import Verif.Pico.Spec
/-!
# C94: sequences of pico commands
-/
namespace Osp.Pico
open Osp.Install
variable {G B R : Type} {E : Env G B R}

theorem Builds.append {dir : List (Text × File B R)} {g1 g2 g3 : G} {a b : List (Doc B)} (h1 : Builds E dir g1 a g2) (h2 : Builds E dir g2 b g3) : Builds E dir g1 (a ++ b) g3 := by
  induction h1 with
  | nil => exact h2
  | yml ho hg _ ih => exact .yml ho hg (ih h2)
  | rdf ho hc hg _ ih => exact .rdf ho hc hg (ih h2)

theorem Builds.transfer {dir dir' : List (Text × File B R)} {g g' : G} {l : List (Doc B)} (h : Builds E dir g l g')
    (hk : ∀ d ∈ l, d.owl = true → look dir' (d.ident ++ dotXml) = look dir (d.ident ++ dotXml)) : Builds E dir' g l g' := by
  induction h with
  | nil => exact .nil _
  | yml ho hg _ ih => exact .yml ho hg (ih (fun d hd => hk d (List.mem_cons_of_mem _ hd)))
  | rdf ho hc hg _ ih => exact .rdf ho ((hk _ List.mem_cons_self ho).trans hc) hg (ih (fun d hd => hk d (List.mem_cons_of_mem _ hd)))

theorem stamp_rdf (hp : PathFree E) (g : G) (d : Doc B) (c : R) : E.rdf g d.stamp c = E.rdf g d c := by
  unfold Doc.stamp
  split
  · exact hp _ _ _ _
  · rfl

theorem builds_of_loads (hp : PathFree E) {w : World G B R} {dir : List (Text × File B R)} {g g' : G} {order : List Text} (h : Loads E w g order g') :
    ∀ ds : List (Text × Doc B), ds.map (·.1) = order → (∀ e ∈ ds, readDoc E w e.1 = .ok e.2) →
    (∀ e ∈ ds, e.2.owl = true → ∀ fmt c, w.read E (rdfPath (filePath E w e.1) e.2) = some (.rdf fmt c) → look dir (e.2.ident ++ dotXml) = some (.rdf xml c)) →
    Builds E dir g (ds.map (fun e => e.2.stamp)) g' := by
  induction h with
  | nil g =>
    intro ds hds _ _
    rw [List.map_eq_nil_iff] at hds
    subst hds
    exact .nil _
  | @yml g g1 g2 f l d hd ho hg _ ih =>
    intro ds hds hr hx
    obtain ⟨e, ds', rfl, rfl, rfl⟩ := List.map_eq_cons_iff.1 hds
    have he := hr e List.mem_cons_self
    rw [hd] at he
    cases he
    refine .yml (by rw [stamp_owl]; exact ho) ?_ (ih ds' rfl (fun x hx => hr x (List.mem_cons_of_mem _ hx)) (fun x h => hx x (List.mem_cons_of_mem _ h)))
    have : e.2.stamp = e.2 := by unfold Doc.stamp; rw [ho]; rfl
    show E.yml g e.2.stamp = _
    rw [this]; exact hg
  | @rdf g g1 g2 f l d fmt c hd ho _ _ hf hfmt hg _ ih =>
    intro ds hds hr hx
    obtain ⟨e, ds', rfl, rfl, rfl⟩ := List.map_eq_cons_iff.1 hds
    have he := hr e List.mem_cons_self
    rw [hd] at he
    cases he
    refine .rdf (c := c) (by rw [stamp_owl]; exact ho) ?_ ?_ (ih ds' rfl (fun x hx => hr x (List.mem_cons_of_mem _ hx)) (fun x h => hx x (List.mem_cons_of_mem _ h)))
    · rw [stamp_ident]; exact hx e List.mem_cons_self ho fmt c hf
    · rw [stamp_rdf hp]; exact hg

theorem Sound.closed {dir : List (Text × File B R)} {g : G} (h : Sound E dir g) : Closed dir := by
  obtain ⟨docs, h1, _, h2, _⟩ := h.built
  exact ⟨docs, h1, h2⟩

theorem look_storeReg {dir : List (Text × File B R)} {g : G} {i : Text} (h : i ≠ "graph".toList) : look (storeReg E g dir) (i ++ dotXml) = look dir (i ++ dotXml) := by
  unfold storeReg
  have h2 : i ++ dotXml ≠ graphXml := fun he => h (app_xml_inj (j := "graph".toList) he)
  rw [look_put, if_neg (txt_ne i).2, look_put, if_neg h2]

/-- A successful installation leaves the directory in order. -/
theorem sound_install' (hE : Fair E) (hp : PathFree E) {filter : World G B R → List Text → Except PyErr (List Text)} {clear : Bool} {w w' : World G B R} {files : List Text} {g : G}
    (hs : Sound E w.dir g) (hu : Undotted w) (hg : clear = false → w.graph = g)
    (hnew : clear = false → ∀ fs, filter w files = .ok fs → ∀ f ∈ fs, ∀ d, readDoc E w f = .ok d → w.docOf d.ident = none)
    (hgr : ∀ fs, filter (w.begin E clear) files = .ok fs → ∀ f ∈ fs, ∀ d, readDoc E w f = .ok d → d.owl = true → d.ident ≠ "graph".toList)
    (h : install' E filter clear w files = (w', none)) : Sound E w'.dir w'.graph := by
  rcases install'_cases h with ⟨e, ho, -⟩ | ⟨fs, hf, hcase⟩
  · cases ho
  rcases hcase with ⟨e, ho, -⟩ | ⟨order, hso, hcase⟩
  · cases ho
  rcases hcase with ⟨e, P, ho, -⟩ | ⟨P, hpa, dir, hst, rfl⟩
  · cases ho
  have hgood : Good w := ⟨hs.tidy, hs.closed, hu⟩
  obtain ⟨hl, ds, b⟩ := batch hso hpa
  have hl := loads_begin.1 hl
  have hmem : ∀ e ∈ ds, e.1 ∈ fs ∧ readDoc E w e.1 = .ok e.2 := fun e he => ⟨(b.mem e he).1, by rw [← begin_readDoc E clear]; exact (b.mem e he).2⟩
  have hb : Good (w.begin E clear) := by cases clear <;> exact ⟨hgood.tidy, hgood.closed, hgood.undotted⟩
  have hread : Read P.graphs P.docs := b.read (fun f d hd => undotted_readDoc hE hb.tidy hb.undotted f d hd)
  have hnog : ∀ e ∈ ds, e.2.owl = true → e.2.ident ≠ "graph".toList := fun e he ho => hgr fs hf e.1 (hmem e he).1 e.2 (hmem e he).2 ho
  have hbase : Tidy (if clear then [] else w.dir : List (Text × File B R)) := by
    cases clear
    · exact hs.tidy
    · exact tidy_nil
  obtain ⟨ht, hd1, hd2⟩ := tidy_stored hread (List.Sublist.refl _) hbase hst
  obtain ⟨k1, k2, -, -⟩ := storeDocs_ok _ _ _ hread.once hst
  have hinst : ∀ r ∈ (if clear then [] else w.installed E : List Text), ∃ d, docIn (if clear then [] else w.dir : List (Text × File B R)) r = some d := by
    cases clear
    · intro r hr
      exact (mem_installed hs.tidy).1 hr
    · intro r hr; cases hr
  have hfresh : ∀ d ∈ P.docs, docIn (if clear then [] else w.dir : List (Text × File B R)) d.ident = none := by
    cases clear
    · intro d hd
      rw [b.docs] at hd
      obtain ⟨e, he, rfl⟩ := List.mem_map.1 hd
      exact hnew rfl fs hf e.1 (hmem e he).1 e.2 (hmem e he).2
    · intro d _; rfl
  have harr : Arranged (if clear then [] else w.installed E : List Text) P.docs := by rw [b.docs]; exact b.arranged
  -- the packages that were there, and the graph they gave
  obtain ⟨docs, hm, hn, ha, hbu⟩ : ∃ docs, (∀ d, d ∈ docs ↔ ∃ i, docIn (if clear then [] else w.dir : List (Text × File B R)) i = some d) ∧ (docs.map Doc.ident).Nodup ∧ Arranged [] docs ∧
      Builds E (if clear then [] else w.dir : List (Text × File B R)) E.cuba docs (w.begin E clear).graph := by
    cases clear
    · obtain ⟨docs, r1, r2, r3, r4⟩ := hs.built
      refine ⟨docs, r1, r2, r3, ?_⟩
      show Builds E w.dir E.cuba docs w.graph
      rw [hg rfl]; exact r4
    · refine ⟨[], fun d => ?_, List.nodup_nil, fun b d a he => by (cases b <;> cases he), .nil _⟩
      constructor
      · intro h; cases h
      · rintro ⟨i, hi⟩; cases hi
  obtain ⟨q1, q2⟩ := docs_stored hread (List.Sublist.refl _) hbase hst hm ha harr hinst hfresh
  have hold : ∀ d ∈ docs, d.owl = true → d.ident ≠ "graph".toList := by
    cases clear
    · intro d hd ho he
      obtain ⟨i, hi⟩ := (hm d).1 hd
      have hi : docIn w.dir i = some d := hi
      have := hs.graph d (by rw [← he, (hs.tidy.ident hi).1]; exact hi)
      rw [ho] at this
      cases this
    · intro d hd
      obtain ⟨i, hi⟩ := (hm d).1 hd
      cases hi
  have hnew' : ∀ d ∈ docs, d.ident ∉ P.docs.map Doc.ident := by
    intro d hd hi
    obtain ⟨i, hi'⟩ := (hm d).1 hd
    obtain ⟨x, hx, he⟩ := List.mem_map.1 hi
    have := hfresh x hx
    rw [he, (hbase.ident hi').1, hi'] at this
    cases this
  simp only [if_true]
  refine ⟨tidy_storeReg E _ ht, ⟨docs ++ P.docs.map Doc.stamp, fun d => by rw [q1]; simp only [docIn_storeReg], ?_, q2, ?_⟩, Or.inr ⟨?_, ?_⟩, ?_⟩
  · rw [List.map_append, List.nodup_append]
    refine ⟨hn, ?_, ?_⟩
    · rw [List.map_map, show Doc.ident ∘ Doc.stamp = (Doc.ident : Doc B → Text) from funext stamp_ident]; exact hread.once
    · intro x hx y hy he
      subst he
      rw [List.map_map, show Doc.ident ∘ Doc.stamp = (Doc.ident : Doc B → Text) from funext stamp_ident] at hy
      obtain ⟨d, hd, rfl⟩ := List.mem_map.1 hx
      exact hnew' d hd hy
  · refine Builds.append (hbu.transfer fun d hd ho => ?_) ?_
    · rw [look_storeReg (hold d hd ho)]
      refine k2 _ fun x hx => ⟨xml_ne_yml _ _, fun _ he => ?_⟩
      exact hnew' d hd (List.mem_map.2 ⟨x, hx, (app_xml_inj he).symm⟩)
    · rw [b.docs, List.map_map]
      refine builds_of_loads hp hl ds b.order (fun e he => (hmem e he).2) fun e he ho fmt c hr => ?_
      have hed : e.2 ∈ P.docs := by rw [b.docs]; exact List.mem_map.2 ⟨e, he, rfl⟩
      obtain ⟨-, -, hx⟩ := k1 e.2 hed
      obtain ⟨c', hc1, hc2⟩ := hx ho
      rw [look_storeReg (hnog e he ho), hc2]
      obtain ⟨-, fmt', c'', hr', hc3⟩ := b.rdf e he ho
      rw [known_name hread (fun _ h => h) hed hc1, hc1] at hc3
      have hrr : (w.begin E clear).read E (rdfPath (filePath E (w.begin E clear) e.1) e.2) = w.read E (rdfPath (filePath E w e.1) e.2) := by cases clear <;> rfl
      rw [hrr, hr] at hr'
      cases hr'
      cases hc3
      rfl
  · simp [storeReg, look_put, show graphXml ≠ namespacesTxt by decide]
  · simp [storeReg, look_put]
  · intro d hd
    rw [docIn_storeReg] at hd
    by_cases hi : "graph".toList ∈ P.docs.map Doc.ident
    · obtain ⟨x, hx, he⟩ := List.mem_map.1 hi
      have hdx := hd1 x hx
      rw [he, hd] at hdx
      cases hdx
      rw [stamp_owl]
      rw [b.docs] at hx
      obtain ⟨e, hed, rfl⟩ := List.mem_map.1 hx
      cases ho : e.2.owl with
      | false => rfl
      | true => exact absurd he (hnog e hed ho)
    · rw [hd2 _ hi] at hd
      cases clear
      · exact hs.graph d hd
      · cases hd

/-! ### one process -/

variable {empty : G} {spaces : G → List Text}

/-- A new process finds the graph of the installed packages. -/
theorem restart_sound (hl : Reloads E) {w : World G B R} {g : G} (hs : Sound E w.dir g) :
    (restart E empty w).graph = g ∧ (restart E empty w).names = g ∧ (restart E empty w).dir = w.dir ∧ (restart E empty w).ext = w.ext := by
  unfold restart
  rcases hs.saved with ⟨h1, rfl⟩ | ⟨h1, h2⟩
  · rw [h1]; exact ⟨rfl, rfl, rfl, rfl⟩
  · rw [h1]
    simp only [h2, if_true, hl g, and_self]

theorem restart_dir (w : World G B R) : (restart E empty w).dir = w.dir ∧ (restart E empty w).ext = w.ext := by
  unfold restart
  split <;> exact ⟨rfl, rfl⟩

theorem read_same {w w' : World G B R} (h1 : w'.dir = w.dir) (h2 : w'.ext = w.ext) (t : Text) : readDoc E w' t = readDoc E w t ∧ w'.docOf t = w.docOf t ∧ meant E w' t = meant E w t := by
  obtain ⟨d, x, g, n⟩ := w
  obtain ⟨d', x', g', n'⟩ := w'
  dsimp only at h1 h2
  subst h1 h2
  exact ⟨rfl, rfl, rfl⟩

/-- One command on a directory in order. -/
theorem run_sound (hE : Fair E) (hp : PathFree E) {w : World G B R} {g : G} {c : Cmd} (hs : Sound E w.dir g) (hg : w.graph = g) (hu : Undotted w) (hf : Fit E w c) :
    ((run E spaces w c).2.logged = none → ∃ g', Sound E (run E spaces w c).1.dir g') ∧ ((run E spaces w c).2.logged ≠ none → (run E spaces w c).1.dir = w.dir) := by
  have hgood : Good w := ⟨hs.tidy, hs.closed, hu⟩
  have hinstd : ∀ i d, w.docOf i = some d → d.owl = true → d.ident ≠ "graph".toList := by
    intro i d hd ho he
    have hid := (hs.tidy.ident hd).1
    have := hs.graph d (by rw [← he, hid]; exact hd)
    rw [ho] at this
    cases this
  have hrd : ∀ f, readDoc E (w.begin E true) f = readDoc E w f := fun f => begin_readDoc E true w f
  cases c with
  | none => exact ⟨fun _ => ⟨g, hs⟩, fun h => absurd rfl h⟩
  | list => exact ⟨fun _ => ⟨g, hs⟩, fun h => absurd rfl h⟩
  | install ov files =>
    have hno : ¬ ∃ f ∈ files, ∃ d, readDoc E w f = .ok d ∧ ((d.owl = true ∧ d.name ≠ d.ident) ∨ '/' ∈ d.ident) := by
      rintro ⟨f, hfm, d, hd, ⟨ho, hne⟩ | hsl⟩
      · exact hne ((hf f hfm d hd).2 ho).1
      · exact (hf f hfm d hd).1 hsl
    cases ov with
    | false =>
      show ((install E w files).2 = none → ∃ g', Sound E (install E w files).1.dir g') ∧ ((install E w files).2 ≠ none → (install E w files).1.dir = w.dir)
      constructor
      · intro h
        refine ⟨_, sound_install' (filter := newPackages E) (clear := false) (files := files) hE hp hs hu (fun _ => hg) ?_ ?_ (Prod.ext rfl h)⟩
        · intro _ fs hfs f hfm d hd
          obtain ⟨-, h2⟩ := newPackages_ok hE hfs
          have := ((h2 f).1 hfm).2 d hd
          cases hx : w.docOf d.ident with
          | none => rfl
          | some x => exact absurd ((mem_installed hs.tidy).2 ⟨x, hx⟩) this
        · intro fs hfs f hfm d hd ho
          obtain ⟨-, h2⟩ := newPackages_ok (w := w) hE hfs
          exact ((hf f ((h2 f).1 hfm).1 d hd).2 ho).2
      · intro h
        obtain ⟨e, he⟩ := Option.ne_none_iff_exists'.1 h
        exact (install_fails_directory_kept E hE w _ files e (Prod.ext rfl he)).resolve_right hno
    | true =>
      show ((overwrite E w files).2 = none → ∃ g', Sound E (overwrite E w files).1.dir g') ∧ ((overwrite E w files).2 ≠ none → (overwrite E w files).1.dir = w.dir)
      constructor
      · intro h
        refine ⟨_, sound_install' (filter := replaced E) (clear := true) (files := files) hE hp hs hu (fun h => by cases h) (fun h => by cases h) ?_ (Prod.ext rfl h)⟩
        intro fs hfs f hfm d hd ho
        obtain ⟨-, h2, -⟩ := replaced_ok (w := w.begin E true) hE hs.tidy hfs
        rcases h2 f hfm with h2 | ⟨i, d', hd', -, rfl⟩
        · exact ((hf f h2 d hd).2 ho).2
        · have := readDoc_installed (w := w.begin E true) hE hs.tidy hd'
          rw [hrd, hd] at this
          cases this
          exact hinstd i d hd' ho
      · intro h
        obtain ⟨e, he⟩ := Option.ne_none_iff_exists'.1 h
        exact (overwrite_fails_directory_kept E hE w _ files e hgood (Prod.ext rfl he)).resolve_right hno
  | uninstall ps =>
    generalize hps : (if ps = ["all".toList] then E.enumF (w.installed E) else ps) = args
    have hrun : run E spaces w (.uninstall ps) = ((uninstall E w args).1, ⟨[], (uninstall E w args).2⟩) := by rw [← hps]; rfl
    rw [hrun]
    dsimp only
    constructor
    · intro h
      refine ⟨_, sound_install' (filter := remaining E) (clear := true) (files := args) hE hp hs hu (fun h => by cases h) (fun h => by cases h) ?_ (Prod.ext rfl h)⟩
      intro fs hfs f hfm d hd ho
      obtain ⟨-, h2⟩ := remaining_ok (w := w.begin E true) hE hs.tidy hfs
      obtain ⟨i, d', hd', -, rfl⟩ := (h2 f).1 hfm
      have := readDoc_installed (w := w.begin E true) hE hs.tidy hd'
      rw [hrd, hd] at this
      cases this
      exact hinstd i d hd' ho
    · intro h
      obtain ⟨e, he⟩ := Option.ne_none_iff_exists'.1 h
      exact uninstall_fails_directory_kept_partial E hE w _ args e hgood (Prod.ext rfl he)

theorem fit_same {w w' : World G B R} {c : Cmd} (h1 : w'.dir = w.dir) (h2 : w'.ext = w.ext) (h : Fit E w c) : Fit E w' c := by
  cases c with
  | install ov files =>
    intro f hf d hd
    rw [(read_same h1 h2 f).1] at hd
    exact h f hf d hd
  | _ => trivial

/-- **C94.** One pico command, run on a directory that is in order: afterwards it is in order again; and if the command reports an error (or cannot start), the directory is as it was. -/
theorem pico_sound (hE : Fair E) (hp : PathFree E) (hl : Reloads E) (level : Option PyErr) (w : World G B R) (c : Cmd) (g : G) (hs : Sound E w.dir g) (hu : Undotted w) (hf : Fit E w c) :
    (∃ g', Sound E (pico E empty spaces level w c).1.dir g') ∧
    ((∀ o, (pico E empty spaces level w c).2 = .ok o → o.logged ≠ none) → (pico E empty spaces level w c).1.dir = w.dir) := by
  cases level with
  | some e => exact ⟨⟨g, hs⟩, fun _ => rfl⟩
  | none =>
    obtain ⟨r1, r2, r3, r4⟩ := restart_sound (empty := empty) hl hs
    have := run_sound (spaces := spaces) (w := restart E empty w) (g := g) (c := c) hE hp (by rw [r3]; exact hs) r1 (fun t d h => hu t d (by rw [← r4]; exact h)) (fit_same r3 r4 hf)
    rw [r3] at this
    constructor
    · by_cases hn : (run E spaces (restart E empty w) c).2.logged = none
      · exact this.1 hn
      · refine ⟨g, ?_⟩
        show Sound E (run E spaces (restart E empty w) c).1.dir g
        rw [this.2 hn]; exact hs
    · intro h
      exact this.2 (h _ rfl)

/-- No installation is in order. -/
theorem sound_nil : Sound E ([] : List (Text × File B R)) E.cuba := by
  refine ⟨tidy_nil, ⟨[], fun d => ⟨fun h => (nomatch h), ?_⟩, List.nodup_nil, ?_, .nil _⟩, Or.inl ⟨rfl, rfl⟩, ?_⟩
  · rintro ⟨i, hi⟩; cases hi
  · intro b d a he
    cases b <;> cases he
  · intro d hd; cases hd

/-- **C94.** After any sequence of pico commands, starting without an installation, the directory is in order: the graph the next process finds is that of exactly the installed
packages, parsed in an order that respects the requirements. -/
theorem pico_history (hE : Fair E) (hp : PathFree E) (hl : Reloads E) (dir : List (Text × File B R)) (h : History E empty spaces [] dir) : ∃ g, Sound E dir g := by
  have : ∀ a b, History E empty spaces a b → (∃ g, Sound E a g) → ∃ g, Sound E b g := by
    intro a b h ha
    induction h with
    | start => exact ha
    | next w level c hw hu hf _ ih =>
      obtain ⟨g, hs⟩ := ih
      rw [← hw] at hs
      exact (pico_sound hE hp hl level w c g hs hu hf).1
  exact this _ _ h ⟨E.cuba, sound_nil⟩

/-! ### what the commands do -/

theorem pico_ok {w : World G B R} {c : Cmd} {level : Option PyErr} {o : Outcome} (h : (pico E empty spaces level w c).2 = .ok o) :
    level = none ∧ (pico E empty spaces level w c).1 = (run E spaces (restart E empty w) c).1 ∧ o = (run E spaces (restart E empty w) c).2 := by
  cases level with
  | some e => cases h
  | none => cases h; exact ⟨rfl, rfl, rfl⟩

/-- **C94.** `pico install` without an error: all named files exist; the packages installed before stay as they are; of the others exactly those of the named files are there. -/
theorem pico_install_exact (hE : Fair E) (hl : Reloads E) (level : Option PyErr) (w : World G B R) (files : List Text) (g : G) (hs : Sound E w.dir g) (hu : Undotted w)
    (o : Outcome) (h : (pico E empty spaces level w (.install false files)).2 = .ok o) (ho : o.logged = none) :
    (∀ f ∈ files, ∃ d, readDoc E w f = .ok d) ∧
    (∀ i d, w.docOf i = some d → (pico E empty spaces level w (.install false files)).1.docOf i = some d) ∧
    (∀ i d, (pico E empty spaces level w (.install false files)).1.docOf i = some d →
      w.docOf i = some d ∨ (w.docOf i = none ∧ ∃ f ∈ files, ∃ d', readDoc E w f = .ok d' ∧ d'.ident = i ∧ d.Same d')) ∧
    (∀ f ∈ files, ∀ d, readDoc E w f = .ok d → ∃ d', (pico E empty spaces level w (.install false files)).1.docOf d.ident = some d') := by
  obtain ⟨-, h1, h2⟩ := pico_ok h
  rw [h1]
  obtain ⟨-, -, r3, r4⟩ := restart_sound (empty := empty) hl hs
  have hgood : Good (restart E empty w) := ⟨by rw [r3]; exact hs.tidy, by rw [r3]; exact hs.closed, fun t d h => hu t d (by rw [← r4]; exact h)⟩
  rw [h2] at ho
  obtain ⟨k1, k2, k3, k4, -⟩ := install_exact E hE (restart E empty w) (run E spaces (restart E empty w) (.install false files)).1 files hgood (Prod.ext rfl ho)
  have hr : ∀ t, readDoc E (restart E empty w) t = readDoc E w t := fun t => (read_same r3 r4 t).1
  have hd : ∀ t, (restart E empty w).docOf t = w.docOf t := fun t => (read_same (E := E) r3 r4 t).2.1
  simp only [hr, hd] at k1 k2 k3 k4
  exact ⟨k1, k2, k3, k4⟩

/-- **C94.** `pico install --overwrite` without an error: all named files exist and their packages are installed as the files say; all others stay as they are. -/
theorem pico_overwrite_exact (hE : Fair E) (hl : Reloads E) (level : Option PyErr) (w : World G B R) (files : List Text) (g : G) (hs : Sound E w.dir g) (hu : Undotted w)
    (o : Outcome) (h : (pico E empty spaces level w (.install true files)).2 = .ok o) (ho : o.logged = none) :
    (∀ f ∈ files, ∃ d, readDoc E w f = .ok d) ∧
    (∀ i, (∀ f ∈ files, ∀ d, readDoc E w f = .ok d → d.ident ≠ i) → (pico E empty spaces level w (.install true files)).1.docOf i = w.docOf i) ∧
    (∀ f ∈ files, ∀ d, readDoc E w f = .ok d → ∃ d1, (pico E empty spaces level w (.install true files)).1.docOf d.ident = some d1 ∧
      ∃ f' ∈ files, ∃ d', readDoc E w f' = .ok d' ∧ d'.ident = d.ident ∧ d1.Same d') := by
  obtain ⟨-, h1, h2⟩ := pico_ok h
  rw [h1]
  obtain ⟨-, -, r3, r4⟩ := restart_sound (empty := empty) hl hs
  have hgood : Good (restart E empty w) := ⟨by rw [r3]; exact hs.tidy, by rw [r3]; exact hs.closed, fun t d h => hu t d (by rw [← r4]; exact h)⟩
  rw [h2] at ho
  obtain ⟨k1, k2, k3, -⟩ := overwrite_exact E hE (restart E empty w) (run E spaces (restart E empty w) (.install true files)).1 files hgood (Prod.ext rfl ho)
  have hr : ∀ t, readDoc E (restart E empty w) t = readDoc E w t := fun t => (read_same r3 r4 t).1
  have hd : ∀ t, (restart E empty w).docOf t = w.docOf t := fun t => (read_same (E := E) r3 r4 t).2.1
  simp only [hr, hd] at k1 k2 k3
  refine ⟨k1, fun i hi => k2 i fun f hf hg => ?_, fun f hf d hfd => ?_⟩
  · obtain ⟨d, hd1, hd2⟩ := getIdentifier_ok.1 hg
    exact hi f hf d (by rw [← hr]; exact hd1) hd2
  · exact k3 d.ident ⟨f, hf, getIdentifier_ok.2 ⟨d, by rw [hr]; exact hfd, rfl⟩⟩

/-- **C94.** `pico uninstall` without an error, of packages other than just `all`: the named packages were installed and are gone, all others stay as they are. -/
theorem pico_uninstall_exact (hE : Fair E) (hl : Reloads E) (level : Option PyErr) (w : World G B R) (ps : List Text) (hall : ps ≠ ["all".toList]) (g : G) (hs : Sound E w.dir g) (hu : Undotted w)
    (o : Outcome) (h : (pico E empty spaces level w (.uninstall ps)).2 = .ok o) (ho : o.logged = none) :
    (∀ a ∈ ps, ∃ i d, meant E w a = .ok i ∧ w.docOf i = some d) ∧
    (∀ i, (∃ a ∈ ps, meant E w a = .ok i) → (pico E empty spaces level w (.uninstall ps)).1.docOf i = none) ∧
    (∀ i, (∀ a ∈ ps, meant E w a ≠ .ok i) → (pico E empty spaces level w (.uninstall ps)).1.docOf i = w.docOf i) := by
  obtain ⟨-, h1, h2⟩ := pico_ok h
  rw [h1]
  obtain ⟨-, -, r3, r4⟩ := restart_sound (empty := empty) hl hs
  have hgood : Good (restart E empty w) := ⟨by rw [r3]; exact hs.tidy, by rw [r3]; exact hs.closed, fun t d h => hu t d (by rw [← r4]; exact h)⟩
  rw [h2] at ho
  have hrun : run E spaces (restart E empty w) (.uninstall ps) = ((uninstall E (restart E empty w) ps).1, ⟨[], (uninstall E (restart E empty w) ps).2⟩) := by
    simp only [run, if_neg hall]
  rw [hrun] at ho ⊢
  obtain ⟨k1, k2, k3, -⟩ := uninstall_exact E hE (restart E empty w) (uninstall E (restart E empty w) ps).1 ps hgood (Prod.ext rfl ho)
  have hd : ∀ t, (restart E empty w).docOf t = w.docOf t := fun t => (read_same (E := E) r3 r4 t).2.1
  have hm : ∀ t, meant E (restart E empty w) t = meant E w t := fun t => (read_same r3 r4 t).2.2
  simp only [hd, hm] at k1 k2 k3
  exact ⟨k1, k2, k3⟩

/-- An installed package is meant by its name. -/
theorem meant_installed {w : World G B R} (ht : Tidy w.dir) {i : Text} {d : Doc B} (hd : w.docOf i = some d) : meant E w i = .ok i := by
  have hdot := (ht.ident hd).2.1
  unfold meant
  have : endsWith i dotYml = false := by
    cases he : endsWith i dotYml with
    | false => rfl
    | true =>
      obtain ⟨u, rfl⟩ := (endsWith_iff _ _).1 he
      exact absurd (List.mem_append_right _ (by decide)) hdot
  rw [this]
  rfl

/-- **C94.** `pico uninstall all` succeeds after every history; no package is installed then, and the next process finds CUBA only. -/
theorem pico_uninstall_all (hE : Fair E) (hp : PathFree E) (hl : Reloads E) (w : World G B R) (g : G) (hs : Sound E w.dir g) (hu : Undotted w) :
    (pico E empty spaces none w (.uninstall ["all".toList])).2 = .ok ⟨[], none⟩ ∧ (∀ i, (pico E empty spaces none w (.uninstall ["all".toList])).1.docOf i = none) ∧
    Sound E (pico E empty spaces none w (.uninstall ["all".toList])).1.dir E.cuba := by
  obtain ⟨-, -, r3, r4⟩ := restart_sound (empty := empty) hl hs
  generalize hv : restart E empty w = v at r3 r4
  have ht : Tidy v.dir := by rw [r3]; exact hs.tidy
  have hgood : Good v := ⟨ht, by rw [r3]; exact hs.closed, fun t d h => hu t d (by rw [← r4]; exact h)⟩
  have hargs : ∀ a, a ∈ E.enumF (v.installed E) ↔ ∃ d, v.docOf a = some d := fun a => by rw [(hE.files _).2, mem_installed ht]
  have hmeant : ∀ a ∈ E.enumF (v.installed E), meant E v a = .ok a := fun a ha => by
    obtain ⟨d, hd⟩ := (hargs a).1 ha
    exact meant_installed ht hd
  have hnone : ∀ i d, v.docOf i = some d → ¬ ∀ a ∈ E.enumF (v.installed E), meant E v a ≠ .ok i := fun i d hd hn =>
    hn i ((hargs i).2 ⟨d, hd⟩) (hmeant i ((hargs i).2 ⟨d, hd⟩))
  obtain ⟨w', hw'⟩ : ∃ w', uninstall E v (E.enumF (v.installed E)) = (w', none) := by
    refine uninstall_succeeds E hE v _ hgood (fun a ha => ?_) ?_ ?_
    · obtain ⟨d, hd⟩ := (hargs a).1 ha
      exact ⟨a, d, hmeant a ha, hd⟩
    · rintro i r hn ⟨d, hd, -⟩ a ha
      exact absurd hn (hnone i d hd)
    · intro order docs ho hdocs _ _
      have : docs = [] := by
        cases docs with
        | nil => rfl
        | cons d l =>
          obtain ⟨i, hd, hn⟩ := (hdocs d).1 List.mem_cons_self
          exact absurd hn (hnone i d hd)
      subst this
      rw [List.map_nil, List.map_eq_nil_iff] at ho
      subst ho
      exact ⟨_, .nil _⟩
  have hpico : pico E empty spaces none w (.uninstall ["all".toList]) = (w', .ok ⟨[], none⟩) := by
    simp only [pico, run, hv, if_true, hw']
  rw [hpico]
  obtain ⟨-, k2, k3, ⟨docs, k4, -, k5, -⟩, -⟩ := uninstall_exact E hE v w' _ hgood hw'
  have hgone : ∀ i, w'.docOf i = none := by
    intro i
    cases hd : v.docOf i with
    | some d => exact k2 i ⟨i, (hargs i).2 ⟨d, hd⟩, hmeant i ((hargs i).2 ⟨d, hd⟩)⟩
    | none =>
      rw [k3 i, hd]
      intro a ha hm
      rw [hmeant a ha] at hm
      cases hm
      obtain ⟨d, hd'⟩ := (hargs i).1 ha
      rw [hd] at hd'
      cases hd'
  refine ⟨rfl, hgone, ?_⟩
  have hd : docs = [] := by
    cases docs with
    | nil => rfl
    | cons d l =>
      obtain ⟨i, hi⟩ := (k5 d).1 List.mem_cons_self
      rw [hgone i] at hi
      cases hi
  subst hd
  have hgr : w'.graph = E.cuba := by
    generalize w'.graph = x at k4
    rw [List.map_nil] at k4
    cases k4
    rfl
  have := sound_install' (E := E) (filter := remaining E) (clear := true) (g := g) hE hp (by rw [r3]; exact hs) hgood.undotted (fun h => by cases h) (fun h => by cases h) ?_ hw'
  · rw [hgr] at this; exact this
  · intro fs hfs f hfm d hd ho
    obtain ⟨-, h2⟩ := remaining_ok (w := v.begin E true) hE ht hfs
    obtain ⟨i, d', hd', hn, rfl⟩ := (h2 f).1 hfm
    exact absurd hn (hnone i d' hd')

/-- **C94.** `pico list` changes nothing and prints the installed packages, each once, and the namespaces of the graph that is built from them. -/
theorem pico_list_exact (hE : Fair E) (hl : Reloads E) (w : World G B R) (g : G) (hs : Sound E w.dir g) :
    ∃ packages : List Text, packages.Nodup ∧ (∀ i, i ∈ packages ↔ ∃ d, w.docOf i = some d) ∧ (pico E empty spaces none w .list).1.dir = w.dir ∧
      (pico E empty spaces none w .list).2 = .ok ⟨"Packages:\n".toList ++ joinWith ['\n'] (packages.map (fun x => "\t- ".toList ++ x)) ++ "\nNamespaces:\n".toList ++
        joinWith ['\n'] ((spaces g).map (fun x => "\t- ".toList ++ x)) ++ "\n".toList, none⟩ := by
  obtain ⟨-, r2, r3, r4⟩ := restart_sound (empty := empty) hl hs
  have ht : Tidy (restart E empty w).dir := by rw [r3]; exact hs.tidy
  refine ⟨E.enumF ((restart E empty w).installed E), (hE.files _).1, fun i => ?_, r3, ?_⟩
  · rw [(hE.files _).2, mem_installed ht, (read_same (E := E) r3 r4 i).2.1]
  · unfold pico run listing bullets
    rw [r2]
    simp only [List.append_assoc]
    rfl

/-- **C94.** With a level of the log that exists, pico never raises: every exception is only logged (and the exit status says success). With one that does not, nothing is done. -/
theorem pico_never_raises (w : World G B R) (c : Cmd) : (∃ o, (pico E empty spaces none w c).2 = .ok o) ∧ ∀ e, pico E empty spaces (some e) w c = (w, .error e) := ⟨⟨_, rfl⟩, fun _ => rfl⟩

end Osp.Pico
