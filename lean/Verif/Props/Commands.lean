import Verif.Model.Commands
import Verif.Props.SetupConfig
import Verif.Props.VersionFile

/-!
# C102: the commands for setuptools
-/

namespace Gcs
namespace Version

/-- Every name leads to a text. -/
def Spec.Whole (fs : FS) : Prop := ∀ dir name i, fs.entry dir name = some i → i < fs.texts.length

/-- All names but one lead to the same texts in both. -/
def Spec.SameBut (fs fs' : FS) (dir : Dir) (name : Str) : Prop :=
  ∀ dir' name', ¬ (dir' = dir ∧ name' = name) → fs'.read dir' name' = fs.read dir' name'

/-- A version file from which no version can be read: `versioneer` looks further. -/
def Spec.NoVersionIn (text : Str) : Prop :=
  (∀ tagPrefix, versionsFromFound (gitGetKeywords (some text)) tagPrefix = .error .notThisMethod) ∧
    versionsFromFile (some text) = .error .notThisMethod

/-- A tree in `dir` with `setup.py` and a complete configuration that names the version file `source`. -/
structure Spec.Configured (fs : FS) (parse : Str → Option Options) (dir : Dir) (source tag style parent : String) : Prop where
  setup : (fs.entry dir "setup.py".toList).isSome = true
  vcs : HasOption (fs.disk parse) dir "vcs" "git"
  src : HasOption (fs.disk parse) dir "versionfile_source" source
  tag : HasOption (fs.disk parse) dir "tag_prefix" tag
  style : OptionOrEmpty (fs.disk parse) dir "style" style
  parent : OptionOrEmpty (fs.disk parse) dir "parentdir_prefix" parent

open Spec

/-! ### Files -/

theorem read_isSome {fs : FS} (h : Whole fs) (dir : Dir) (name : Str) :
    (fs.read dir name).isSome = (fs.entry dir name).isSome := by
  unfold FS.read
  cases he : fs.entry dir name with
  | none => rfl
  | some i => simp [h _ _ _ he]

theorem write_read (fs : FS) (h : Whole fs) (dir : Dir) (name : Str) (text : Str) :
    (fs.write dir name text).read dir name = some text := by
  unfold FS.write
  cases he : fs.entry dir name with
  | none => simp [FS.read, FS.relink]
  | some i => simp [FS.read, he, h _ _ _ he]

/-- Unlinking and writing: the new text, the same texts under all other names. -/
theorem replace_ok {fs : FS} (h : Whole fs) {dir : Dir} {name : Str} {i : Nat} (he : fs.entry dir name = some i) (text : Str) :
    ∃ fs1, fs.unlink dir name = (fs1, none) ∧ Whole (fs1.write dir name text) ∧
      (fs1.write dir name text).read dir name = some text ∧ SameBut fs (fs1.write dir name text) dir name ∧
      (∀ d n, ((fs1.write dir name text).entry d n).isSome = (fs.entry d n).isSome) := by
  have hW : (FS.mk (fs.relink dir name none) fs.texts).write dir name text =
      ⟨fun d n => if d = dir ∧ n = name then some fs.texts.length else fs.entry d n, fs.texts ++ [text]⟩ := by
    have e : (FS.mk (fs.relink dir name none) fs.texts).entry dir name = none := by simp [FS.relink]
    unfold FS.write
    rw [e]
    simp only [FS.mk.injEq, and_true]
    funext d n
    simp only [FS.relink]
    split <;> rfl
  refine ⟨⟨fs.relink dir name none, fs.texts⟩, by simp only [FS.unlink, he], ?_, ?_, ?_, ?_⟩ <;> rw [hW]
  · intro d n k hk
    simp only at hk
    simp only [List.length_append, List.length_cons, List.length_nil]
    split at hk
    · cases hk; omega
    · have := h d n k hk
      omega
  · simp [FS.read]
  · intro d n hn
    simp only [FS.read, if_neg hn]
    cases hd : fs.entry d n with
    | none => rfl
    | some k =>
      have hk := h d n k hd
      simp only
      rw [List.getElem?_append_left hk]
  · intro d n
    simp only
    by_cases hn : d = dir ∧ n = name
    · rw [if_pos hn, hn.1, hn.2, he]; rfl
    · rw [if_neg hn]

/-- C102, `write_to_version_file` gives the file the new text; every other name leads to the text it led to, also one that was a
hard link to the same file.  The names are the same.  Without a version it is a KeyError, after that. -/
theorem C102_write (fs : FS) (h : Whole fs) (dir : Dir) (name : Str) (versions : Dict)
    (he : (fs.entry dir name).isSome = true) :
    ∃ fs' e, writeToVersionFile fs dir name versions = (fs', e) ∧ Whole fs' ∧
      fs'.read dir name = some (versionFile versions) ∧ SameBut fs fs' dir name ∧
      (∀ d n, (fs'.entry d n).isSome = (fs.entry d n).isSome) ∧
      e = if (versions.get "version".toList).isSome then none else some (.stop (.raised .key)) := by
  obtain ⟨i, hi⟩ := Option.isSome_iff_exists.1 he
  obtain ⟨fs1, h1, h2, h3, h4, h5⟩ := replace_ok h hi (versionFile versions)
  refine ⟨_, _, ?_, h2, h3, h4, h5, rfl⟩
  simp only [writeToVersionFile, h1]
  cases versions.get "version".toList <;> rfl

/-- C102, a file that is not there is an error, and nothing is written. -/
theorem C102_write_missing (fs : FS) (dir : Dir) (name : Str) (versions : Dict) (he : fs.entry dir name = none) :
    writeToVersionFile fs dir name versions = (fs, some .noFile) := by
  simp only [writeToVersionFile, FS.unlink, he]

/-! ### The configuration -/

theorem Spec.Configured.root {fs : FS} {parse : Str → Option Options} {dir : Dir} {source tag style parent : String}
    (h : Configured fs parse dir source tag style parent) (script : Dir) : getRoot (fs.disk parse) dir script = .ok dir :=
  (C101_root _ _ _).1 (.inl h.setup)

theorem Spec.Configured.versions {fs : FS} {parse : Str → Option Options} {dir : Dir} {source tag style parent : String}
    (h : Configured fs parse dir source tag style parent) (git : Dir → Git) (script : Dir) :
    commandVersions ⟨parse, git, dir, script⟩ fs =
      match setupVersions (fs.read dir source.toList) ⟨style.toList, (unquoted tag).toList, parent.toList⟩ (git dir) dir with
      | .error s => .error (.stop s)
      | .ok v => .ok v :=
  C101_versions (fs.disk parse) git dir script dir (h.root script) source tag style parent h.vcs h.src h.tag h.style h.parent

theorem Spec.Configured.config {fs : FS} {parse : Str → Option Options} {dir : Dir} {source tag style parent : String}
    (h : Configured fs parse dir source tag style parent) (git : Dir → Git) (script : Dir) :
    ∃ c, rootAndConfig ⟨parse, git, dir, script⟩ fs = .ok c ∧ c.source = some source.toList ∧
      (∀ build, HasOption (fs.disk parse) dir "versionfile_build" build → c.build = some build.toList) ∧
      (LacksOption (fs.disk parse) dir "versionfile_build" → c.build = none) := by
  obtain ⟨c, h1, h2, h3⟩ := C101_build (fs.disk parse) dir "git" h.vcs
  obtain ⟨get, hc, hv⟩ := h.vcs
  obtain ⟨get', hc', hs⟩ := h.src
  rw [hc] at hc'
  cases hc'
  obtain ⟨c', k1, -, -, k2, -⟩ := config_ok hc hv
  rw [h1] at k1
  cases k1
  exact ⟨c, by simp only [rootAndConfig, h.root, bind, Except.bind]; exact h1, k2.trans hs, h2, h3⟩

/-- The configuration of another state with the same `setup.cfg`. -/
theorem Spec.Configured.transfer {fs fs' : FS} {parse : Str → Option Options} {dir dir' : Dir} {source tag style parent : String}
    (h : Configured fs parse dir source tag style parent) (hs : (fs'.entry dir' "setup.py".toList).isSome = true)
    (hc : fs'.read dir' "setup.cfg".toList = fs.read dir "setup.cfg".toList) :
    Configured fs' parse dir' source tag style parent := by
  have e : (fs'.disk parse).cfg dir' = (fs.disk parse).cfg dir := by simp only [FS.disk, hc]
  have hO : ∀ n v, HasOption (fs.disk parse) dir n v → HasOption (fs'.disk parse) dir' n v := fun n v ⟨g, a, b⟩ => ⟨g, e.trans a, b⟩
  have hL : ∀ n, LacksOption (fs.disk parse) dir n → LacksOption (fs'.disk parse) dir' n := fun n ⟨g, a, b⟩ => ⟨g, e.trans a, b⟩
  have hE : ∀ n v, OptionOrEmpty (fs.disk parse) dir n v → OptionOrEmpty (fs'.disk parse) dir' n v := fun n v x =>
    x.imp (hO n v) fun ⟨a, b⟩ => ⟨hL n a, b⟩
  exact ⟨hs, hO _ _ h.vcs, hO _ _ h.src, hO _ _ h.tag, hE _ _ h.style, hE _ _ h.parent⟩

/-- A tree with a written version file has the version of that file, whatever git says. -/
theorem written_versions {fs : FS} {parse : Str → Option Options} {dir : Dir} {source tag style parent : String}
    (h : Configured fs parse dir source tag style parent) {v : Dict} (hv : fs.read dir source.toList = some (versionFile v))
    (git : Dir → Git) (script : Dir) : ∃ d, commandVersions ⟨parse, git, dir, script⟩ fs = .ok d ∧ d.Perm v := by
  obtain ⟨d, h1, -, h3⟩ := C88_setup v ⟨style.toList, (unquoted tag).toList, parent.toList⟩ (git dir) dir
  exact ⟨d, by rw [h.versions, hv, h1], h3⟩

/-! ### build_py -/

/-- C102, `build_py`: the versions are those before the build; the file `versionfile_build` in the new directory gets them, and every
other name leads to the text that the build has left there. -/
theorem C102_build (parse : Str → Option Options) (git : Dir → Git) (cwd script buildLib : Dir) (base : Base) (fs fs1 : FS)
    (source tag style parent build : String) (h : Configured fs parse cwd source tag style parent)
    (hb : HasOption (fs.disk parse) cwd "versionfile_build" build) (hne : build ≠ "") (v : Dict)
    (hv : commandVersions ⟨parse, git, cwd, script⟩ fs = .ok v) (hx : (v.get "version".toList).isSome = true)
    (h1 : base fs = (fs1, none)) (hw : Whole fs1) :
    (∀ t, fs1.read buildLib build.toList = some t → ∃ fs', buildPyRun ⟨parse, git, cwd, script⟩ buildLib base fs = (fs', none) ∧
      Whole fs' ∧ fs'.read buildLib build.toList = some (versionFile v) ∧ SameBut fs1 fs' buildLib build.toList) ∧
    (fs1.read buildLib build.toList = none → buildPyRun ⟨parse, git, cwd, script⟩ buildLib base fs = (fs1, some .noFile)) := by
  obtain ⟨c, k1, -, k3, -⟩ := h.config git script
  have hne' : build.toList ≠ [] := fun e => hne (String.toList_inj.1 e)
  have hrun : buildPyRun ⟨parse, git, cwd, script⟩ buildLib base fs = writeToVersionFile fs1 buildLib build.toList v := by
    simp only [buildPyRun, k1, hv, h1, k3 build hb, if_neg hne']
  rw [hrun]
  constructor
  · intro t ht
    have he : (fs1.entry buildLib build.toList).isSome = true := by rw [← read_isSome hw, ht]; rfl
    obtain ⟨fs', e, g1, g2, g3, g4, -, g6⟩ := C102_write fs1 hw buildLib build.toList v he
    rw [if_pos hx] at g6
    exact ⟨fs', by rw [g1, g6], g2, g3, g4⟩
  · intro ht
    refine C102_write_missing fs1 buildLib build.toList v ?_
    have := read_isSome hw buildLib build.toList
    rw [ht] at this
    exact Option.not_isSome_iff_eq_none.1 (by rw [← this]; simp)

/-- C102, the built package has the versions of the tree it was built from: `get_versions()` of the file there gives them, if the
texts can be read back (C88). -/
theorem C102_installed (parse : Str → Option Options) (git : Dir → Git) (cwd script buildLib : Dir) (base : Base) (fs fs1 : FS)
    (source tag style parent build : String) (h : Configured fs parse cwd source tag style parent)
    (hb : HasOption (fs.disk parse) cwd "versionfile_build" build) (hne : build ≠ "") (v : Dict)
    (hv : commandVersions ⟨parse, git, cwd, script⟩ fs = .ok v) (hx : (v.get "version".toList).isSome = true)
    (h1 : base fs = (fs1, none)) (hw : Whole fs1) (t : Str) (ht : fs1.read buildLib build.toList = some t)
    (hr : ∀ t ∈ texts v, Readable t) :
    ∃ fs' text d, buildPyRun ⟨parse, git, cwd, script⟩ buildLib base fs = (fs', none) ∧
      fs'.read buildLib build.toList = some text ∧ moduleVersions text = some d ∧ d.Perm v := by
  obtain ⟨fs', g1, -, g3, -⟩ :=
    (C102_build parse git cwd script buildLib base fs fs1 source tag style parent build h hb hne v hv hx h1 hw).1 t ht
  obtain ⟨d, k1, k2⟩ := C88_package v hr
  exact ⟨fs', _, d, g1, g3, k1, k2⟩

/-- C102, without `versionfile_build`, or with an empty one, `build_py` is that of setuptools. -/
theorem C102_build_without (parse : Str → Option Options) (git : Dir → Git) (cwd script buildLib : Dir) (base : Base) (fs : FS)
    (source tag style parent : String) (h : Configured fs parse cwd source tag style parent)
    (hb : LacksOption (fs.disk parse) cwd "versionfile_build" ∨ HasOption (fs.disk parse) cwd "versionfile_build" "") (v : Dict)
    (hv : commandVersions ⟨parse, git, cwd, script⟩ fs = .ok v) :
    buildPyRun ⟨parse, git, cwd, script⟩ buildLib base fs = base fs := by
  obtain ⟨c, k1, -, k3, k4⟩ := h.config git script
  simp only [buildPyRun, k1, hv]
  rcases hx : base fs with ⟨fs1, e⟩
  cases e with
  | some e => rfl
  | none =>
    rcases hb with hb | hb
    · simp only [k4 hb]
    · simp [k3 _ hb]

/-- C102, no version, no build: what `get_versions` raises, `build_py`, `sdist` and the frozen builds raise, with no file changed. -/
theorem C102_no_version (a : Around) (fs : FS) (e : Fail) (hv : commandVersions a fs = .error e) (buildLib : Dir) (base : Base)
    (long : RootConfig → Str) (fullname : JVal → Dir) (prepare : Base) (tree : Dir → Base) :
    buildPyRun a buildLib base fs = (fs, some e) ∧ freezeRun a long base fs = (fs, some e) ∧
      sdistRun a fullname prepare tree fs = ⟨fs, none, some e⟩ := by
  have hr : (∃ c, rootAndConfig a fs = .ok c) ∨ rootAndConfig a fs = .error e := by
    simp only [commandVersions, getVersionsSetup] at hv
    simp only [rootAndConfig]
    rcases hg : getRoot (fs.disk a.parse) a.cwd a.script with e' | root
    · rw [hg] at hv
      exact .inr (by cases hv; rfl)
    · rw [hg] at hv
      simp only [bind, Except.bind] at hv ⊢
      rcases hc : getConfigFromRoot (fs.disk a.parse) root with e' | c
      · rw [hc] at hv
        exact .inr (by cases hv; rfl)
      · exact .inl ⟨c, rfl⟩
  refine ⟨?_, ?_, by simp only [sdistRun, hv]⟩
  · rcases hr with ⟨c, hr⟩ | hr <;> simp only [buildPyRun, hr, hv]
  · rcases hr with ⟨c, hr⟩ | hr <;> simp only [freezeRun, hr, hv]

/-! ### sdist -/

/-- C102, `sdist`: the metadata has the version that `get_versions` has found; the version file in the directory of the distribution
has that dictionary; all other names, also that of the source tree if `make_release_tree` has made hard links, lead to the texts that
they led to.  And the unpacked distribution has the same versions, wherever it is unpacked and whatever git prints there. -/
theorem C102_sdist (parse : Str → Option Options) (git : Dir → Git) (cwd script : Dir) (fullname : JVal → Dir) (prepare : Base)
    (tree : Dir → Base) (fs fs1 fs2 : FS) (source tag style parent : String)
    (h : Configured fs parse cwd source tag style parent) (v : Dict) (hv : commandVersions ⟨parse, git, cwd, script⟩ fs = .ok v)
    (x : JVal) (hx : v.get "version".toList = some x) (h1 : prepare fs = (fs1, none))
    (hc1 : Configured fs1 parse cwd source tag style parent) (h2 : tree (fullname x) fs1 = (fs2, none)) (hw : Whole fs2) (t : Str)
    (ht : fs2.read (fullname x) source.toList = some t) :
    ∃ fs', sdistRun ⟨parse, git, cwd, script⟩ fullname prepare tree fs = ⟨fs', some x, none⟩ ∧ Whole fs' ∧
      fs'.read (fullname x) source.toList = some (versionFile v) ∧ SameBut fs2 fs' (fullname x) source.toList ∧
      (source ≠ "setup.cfg" → (fs2.entry (fullname x) "setup.py".toList).isSome = true →
        fs2.read (fullname x) "setup.cfg".toList = fs.read cwd "setup.cfg".toList →
        ∀ (fs3 : FS) (dir : Dir), (fs3.entry dir "setup.py".toList).isSome = (fs'.entry (fullname x) "setup.py".toList).isSome →
          (∀ name, fs3.read dir name = fs'.read (fullname x) name) →
          ∀ git3 script3, ∃ d, commandVersions ⟨parse, git3, dir, script3⟩ fs3 = .ok d ∧ d.Perm v) := by
  obtain ⟨c, k1, k2, -⟩ := hc1.config git script
  have he : (fs2.entry (fullname x) source.toList).isSome = true := by rw [← read_isSome hw, ht]; rfl
  obtain ⟨fs', e, g1, g2, g3, g4, g5, g6⟩ := C102_write fs2 hw (fullname x) source.toList v he
  rw [hx] at g6
  simp only [Option.isSome_some, if_true] at g6
  subst g6
  refine ⟨fs', ?_, g2, g3, g4, ?_⟩
  · simp only [sdistRun, hv, hx, h1, makeReleaseTree, k1, h2, k2, g1]
  · intro hs hp hcf fs3 dir hp3 hr3 git3 script3
    have hcfg : fs3.read dir "setup.cfg".toList = fs.read cwd "setup.cfg".toList := by
      rw [hr3, g4 _ _ (fun hh => hs (String.toList_inj.1 hh.2.symm)), hcf]
    exact written_versions (h.transfer (by rw [hp3, g5, hp]) hcfg) (by rw [hr3, g3]) git3 script3

/-- C102, `sdist` fails if the version file is not among the files of the distribution; nothing is written then. -/
theorem C102_sdist_missing (parse : Str → Option Options) (git : Dir → Git) (cwd script : Dir) (fullname : JVal → Dir)
    (prepare : Base) (tree : Dir → Base) (fs fs1 fs2 : FS) (source tag style parent : String) (v : Dict)
    (hv : commandVersions ⟨parse, git, cwd, script⟩ fs = .ok v)
    (x : JVal) (hx : v.get "version".toList = some x) (h1 : prepare fs = (fs1, none))
    (hc1 : Configured fs1 parse cwd source tag style parent) (h2 : tree (fullname x) fs1 = (fs2, none))
    (ht : fs2.entry (fullname x) source.toList = none) :
    sdistRun ⟨parse, git, cwd, script⟩ fullname prepare tree fs = ⟨fs2, some x, some .noFile⟩ := by
  obtain ⟨c, k1, k2, -⟩ := hc1.config git script
  simp only [sdistRun, hv, hx, h1, makeReleaseTree, k1, h2, k2, C102_write_missing fs2 _ _ v ht]

/-- C102, what the build, the preparation or `make_release_tree` of the other module raises, `build_py` and `sdist` raise; the files
are as these have left them, no version file is written. -/
theorem C102_base_fails (parse : Str → Option Options) (git : Dir → Git) (cwd script buildLib : Dir) (fullname : JVal → Dir)
    (fs fs1 : FS) (source tag style parent : String) (h : Configured fs parse cwd source tag style parent) (v : Dict)
    (hv : commandVersions ⟨parse, git, cwd, script⟩ fs = .ok v) (e : Fail) :
    (∀ base : Base, base fs = (fs1, some e) → buildPyRun ⟨parse, git, cwd, script⟩ buildLib base fs = (fs1, some e)) ∧
    ∀ x, v.get "version".toList = some x →
      (∀ (prepare : Base) tree, prepare fs = (fs1, some e) →
        sdistRun ⟨parse, git, cwd, script⟩ fullname prepare tree fs = ⟨fs1, some x, some e⟩) ∧
      ∀ (prepare : Base) tree fs2, prepare fs = (fs2, none) → Configured fs2 parse cwd source tag style parent →
        tree (fullname x) fs2 = (fs1, some e) →
        sdistRun ⟨parse, git, cwd, script⟩ fullname prepare tree fs = ⟨fs1, some x, some e⟩ := by
  obtain ⟨c, k1, -⟩ := h.config git script
  refine ⟨fun base hb => by simp only [buildPyRun, k1, hv, hb], fun x hx => ⟨fun prepare tree hp => ?_, ?_⟩⟩
  · simp only [sdistRun, hv, hx, hp]
  · intro prepare tree fs2 hp h2 ht
    obtain ⟨c2, k2, -⟩ := h2.config git script
    simp only [sdistRun, hv, hx, hp, makeReleaseTree, k2, ht]

/-- C102, `sdist` with versions without an item `version` is a KeyError, with no file changed. -/
theorem C102_sdist_unnamed (a : Around) (fullname : JVal → Dir) (prepare : Base) (tree : Dir → Base) (fs : FS) (v : Dict)
    (hv : commandVersions a fs = .ok v) (hx : ∀ e ∈ v, e.1 ≠ "version".toList) :
    sdistRun a fullname prepare tree fs = ⟨fs, none, some (.stop (.raised .key))⟩ := by
  have e : v.get "version".toList = none := by
    simp only [Dict.get, Option.map_eq_none_iff, List.find?_eq_none, List.mem_reverse, beq_iff_eq]
    exact hx
  simp only [sdistRun, hv, e]

/-! ### build_exe and py2exe -/

theorem get_isSome {d : Dict} {key : Str} (h : ∃ x, (key, x) ∈ d) : (d.get key).isSome = true := by
  obtain ⟨x, h⟩ := h
  simp only [Dict.get, Option.isSome_map, List.find?_isSome, List.mem_reverse]
  exact ⟨_, h, by simp⟩

/-- What the commands for frozen programs do up to the build. -/
theorem freeze_start (parse : Str → Option Options) (git : Dir → Git) (cwd script : Dir) (long : RootConfig → Str) (base : Base)
    (fs : FS) (hw : Whole fs) (source tag style parent : String) (h : Configured fs parse cwd source tag style parent) (t : Str)
    (ht : fs.read cwd source.toList = some t) (v : Dict) (hv : commandVersions ⟨parse, git, cwd, script⟩ fs = .ok v)
    (hx : (v.get "version".toList).isSome = true) :
    ∃ c fs1, rootAndConfig ⟨parse, git, cwd, script⟩ fs = .ok c ∧ Whole fs1 ∧ fs1.read cwd source.toList = some (versionFile v) ∧
      SameBut fs fs1 cwd source.toList ∧ (∀ d n, (fs1.entry d n).isSome = (fs.entry d n).isSome) ∧
      freezeRun ⟨parse, git, cwd, script⟩ long base fs =
        match base fs1 with
        | (fs2, some e) => (fs2, some e)
        | (fs2, none) =>
          match fs2.unlink cwd source.toList with
          | (fs3, some e) => (fs3, some e)
          | (fs3, none) => (fs3.write cwd source.toList (long c), none) := by
  obtain ⟨c, k1, k2, -⟩ := h.config git script
  have he : (fs.entry cwd source.toList).isSome = true := by rw [← read_isSome hw, ht]; rfl
  obtain ⟨fs1, e, g1, g2, g3, g4, g5, g6⟩ := C102_write fs hw cwd source.toList v he
  rw [if_pos hx] at g6
  subst g6
  refine ⟨c, fs1, k1, g2, g3, g4, g5, ?_⟩
  simp only [freezeRun, k1, hv, k2, g1]
  rfl

/-- C102, `build_exe` and `py2exe` build with a version file that has the versions, and then write the template in its place; every
other name leads to the text that the build has left there. -/
theorem C102_freeze (parse : Str → Option Options) (git : Dir → Git) (cwd script : Dir) (long : RootConfig → Str) (base : Base)
    (fs : FS) (hw : Whole fs) (source tag style parent : String) (h : Configured fs parse cwd source tag style parent) (t : Str)
    (ht : fs.read cwd source.toList = some t) (v : Dict) (hv : commandVersions ⟨parse, git, cwd, script⟩ fs = .ok v)
    (hx : (v.get "version".toList).isSome = true) :
    ∃ c fs1, rootAndConfig ⟨parse, git, cwd, script⟩ fs = .ok c ∧ fs1.read cwd source.toList = some (versionFile v) ∧
      SameBut fs fs1 cwd source.toList ∧
      (∀ fs2 t2, base fs1 = (fs2, none) → Whole fs2 → fs2.read cwd source.toList = some t2 →
        ∃ fs', freezeRun ⟨parse, git, cwd, script⟩ long base fs = (fs', none) ∧ Whole fs' ∧
          fs'.read cwd source.toList = some (long c) ∧ SameBut fs2 fs' cwd source.toList) ∧
      ∀ fs2 e, base fs1 = (fs2, some e) → freezeRun ⟨parse, git, cwd, script⟩ long base fs = (fs2, some e) := by
  obtain ⟨c, fs1, k1, k2, k3, k4, k5, k6⟩ := freeze_start parse git cwd script long base fs hw source tag style parent h t ht v hv hx
  refine ⟨c, fs1, k1, k3, k4, ?_, ?_⟩
  · intro fs2 t2 h2 hw2 ht2
    have he : (fs2.entry cwd source.toList).isSome = true := by rw [← read_isSome hw2, ht2]; rfl
    obtain ⟨i, hi⟩ := Option.isSome_iff_exists.1 he
    obtain ⟨fs3, g1, g2, g3, g4, -⟩ := replace_ok hw2 hi (long c)
    exact ⟨_, by rw [k6]; simp only [h2, g1], g2, g3, g4⟩
  · intro fs2 e h2
    rw [k6]
    simp only [h2]

/-- C102, defect: if the build fails, the written version file stays in the source tree; from then on the tree has the old versions,
whatever git says later. -/
theorem C102_freeze_fails (parse : Str → Option Options) (git : Dir → Git) (cwd script : Dir) (long : RootConfig → Str) (base : Base)
    (fs : FS) (hw : Whole fs) (source tag style parent : String) (h : Configured fs parse cwd source tag style parent)
    (hs : source ≠ "setup.cfg") (t : Str) (ht : fs.read cwd source.toList = some t) (v : Dict)
    (hv : commandVersions ⟨parse, git, cwd, script⟩ fs = .ok v) (hx : (v.get "version".toList).isSome = true)
    (hb : ∀ g, ∃ g' e, base g = (g', some e) ∧ (∀ name, g'.read cwd name = g.read cwd name) ∧
      ∀ name, (g'.entry cwd name).isSome = (g.entry cwd name).isSome) :
    ∃ fs' e, freezeRun ⟨parse, git, cwd, script⟩ long base fs = (fs', some e) ∧
      ∀ git' script', ∃ d, commandVersions ⟨parse, git', cwd, script'⟩ fs' = .ok d ∧ d.Perm v := by
  obtain ⟨c, fs1, k1, k2, k3, k4, k5, k6⟩ := freeze_start parse git cwd script long base fs hw source tag style parent h t ht v hv hx
  obtain ⟨fs2, e, h2, hr, hn⟩ := hb fs1
  refine ⟨fs2, e, by rw [k6]; simp only [h2], fun git' script' => ?_⟩
  refine written_versions (h.transfer ?_ ?_) (by rw [hr, k3]) git' script'
  · rw [hn, k5]; exact h.setup
  · rw [hr, k4 _ _ (fun hh => hs (String.toList_inj.1 hh.2.symm))]

/-- C102, defect: in a tree without git (an unpacked distribution, whose version is in its version file) `build_exe` and `py2exe`
forget the version: afterwards it is unknown. -/
theorem C102_freeze_forgets (parse : Str → Option Options) (git : Dir → Git) (cwd script : Dir) (long : RootConfig → Str) (base : Base)
    (hl : ∀ c, NoVersionIn (long c))
    (fs : FS) (hw : Whole fs) (source tag style : String) (h : Configured fs parse cwd source tag style "")
    (hs : source ≠ "setup.cfg") (v : Dict) (hv : fs.read cwd source.toList = some (versionFile v))
    (hx : ∃ x, ("version".toList, x) ∈ v)
    (hb : ∀ g, Whole g → ∃ g', base g = (g', none) ∧ Whole g' ∧ ∀ name, g'.read cwd name = g.read cwd name) :
    (∃ d, commandVersions ⟨parse, git, cwd, script⟩ fs = .ok d ∧ d.Perm v) ∧
    ∃ fs', freezeRun ⟨parse, git, cwd, script⟩ long base fs = (fs', none) ∧
      ∀ git' script', (git' cwd).gitDir = false → ∃ d, commandVersions ⟨parse, git', cwd, script'⟩ fs' = .ok d ∧
        d.get "version".toList = some (.str "0+unknown".toList) := by
  obtain ⟨d, hd, hp⟩ := written_versions h hv git script
  refine ⟨⟨d, hd, hp⟩, ?_⟩
  obtain ⟨c, fs1, k1, k2, k3, k4, k5, k6⟩ :=
    freeze_start parse git cwd script long base fs hw source tag style "" h _ hv d hd (get_isSome (hx.imp fun x m => hp.mem_iff.2 m))
  obtain ⟨fs2, h2, hw2, hr⟩ := hb fs1 k2
  have he : (fs2.entry cwd source.toList).isSome = true := by rw [← read_isSome hw2, hr, k3]; rfl
  obtain ⟨i, hi⟩ := Option.isSome_iff_exists.1 he
  obtain ⟨fs3, g1, g2, g3, g4, g5⟩ := replace_ok hw2 hi (long c)
  refine ⟨fs3.write cwd source.toList (long c), by rw [k6]; simp only [h2, g1], fun git' script' hg => ?_⟩
  have hc : Configured (fs3.write cwd source.toList (long c)) parse cwd source tag style "" := by
    refine h.transfer ?_ ?_
    · rw [g5, ← read_isSome hw2, hr, read_isSome k2, k5]; exact h.setup
    · have hn : ¬ (cwd = cwd ∧ "setup.cfg".toList = source.toList) := fun hh => hs (String.toList_inj.1 hh.2.symm)
      rw [g4 _ _ hn, hr, k4 _ _ hn]
  rw [hc.versions, g3]
  obtain ⟨u1, u2⟩ := hl c
  have e1 : piecesFromVcs (unquoted tag).toList (git' cwd) = .error .notThisMethod := by simp [piecesFromVcs, hg]
  simp only [setupVersions, u1, u2, e1, orElse, bind, Except.bind]
  exact ⟨_, rfl, by decide +kernel⟩

/-! ### The table of commands -/

/-- C102, `get_cmdclass`: `version` and `sdist` are always there; `build_exe` if cx_Freeze is loaded and `build_py` if it is not;
`py2exe` if that is loaded; nothing else.  The classes of setuptools are extended if that is loaded.  `versioneer` is no longer
loaded afterwards, and everything else is. -/
theorem C102_commands (modules : List String) (name : String) (c : Command) :
    ((name, c) ∈ (getCmdclass modules).1 ↔
      (name = "version" ∧ c = .version) ∨ (name = "sdist" ∧ c = .sdist (decide ("setuptools" ∈ modules))) ∨
      (name = "build_py" ∧ "cx_Freeze" ∉ modules ∧ c = .buildPy (decide ("setuptools" ∈ modules))) ∨
      (name = "build_exe" ∧ "cx_Freeze" ∈ modules ∧ c = .buildExe) ∨
      (name = "py2exe" ∧ "py2exe" ∈ modules ∧ c = .py2exe)) ∧
    ((getCmdclass modules).1.map (·.1)).Nodup ∧
    ∀ m, m ∈ (getCmdclass modules).2 ↔ m ∈ modules ∧ m ≠ "versioneer" := by
  have hm : ∀ m, m ≠ "versioneer" → (m ∈ modules.filter (· ≠ "versioneer") ↔ m ∈ modules) := fun m h => by simp [h]
  simp only [getCmdclass, hm "setuptools" (by decide), hm "cx_Freeze" (by decide), hm "py2exe" (by decide)]
  refine ⟨?_, ?_, fun m => by simp⟩
  · by_cases h1 : "cx_Freeze" ∈ modules <;> by_cases h2 : "py2exe" ∈ modules <;>
      simp [h1, h2] <;> grind
  · by_cases h1 : "cx_Freeze" ∈ modules <;> by_cases h2 : "py2exe" ∈ modules <;> simp [h1, h2]

/-- C102, the command `version` prints the version of the dictionary that `get_versions` returns when git or the keywords are used, and
the error only if there is one. -/
theorem C102_version (i : Info) :
    versionRun i.dict = (["Version: ".toList ++ i.version, " full-revisionid: ".toList ++ i.full.getD "None".toList,
        " dirty: ".toList ++ (match i.dirty with | none => "None" | some true => "True" | some false => "False").toList,
        " date: ".toList ++ i.date.getD "None".toList] ++
      (match i.error with | none => [] | some e => if e = [] then [] else [" error: ".toList ++ e]), none) := by
  have g1 : i.dict.get "version".toList = some (.str i.version) := by
    simp [Info.dict, Dict.get]
  have g2 : i.dict.get "full-revisionid".toList = some (optStr i.full) := by
    simp [Info.dict, Dict.get]
  have g3 : i.dict.get "dirty".toList = some (match i.dirty with | some b => .bool b | none => .null) := by
    cases h : i.dirty <;> simp [Info.dict, Dict.get, h]
  have g4 : i.dict.get "error".toList = some (optStr i.error) := by
    simp [Info.dict, Dict.get]
  have g5 : i.dict.get "date".toList = some (optStr i.date) := by
    simp [Info.dict, Dict.get]
  simp only [versionRun, g1, g2, g3, g4, g5]
  rcases i with ⟨version, full, dirty, error, date⟩
  rcases full with _ | full <;> rcases dirty with _ | _ | _ <;> rcases error with _ | _ | ⟨c, e⟩ <;> rcases date with _ | date <;>
    simp [optStr, showVal, truthy]

/-! ### An example -/

/-- The options for the example. -/
def exOptions : Options := fun n =>
  if n = "vcs".toList then some "git".toList else if n = "style".toList then some "pep440".toList
  else if n = "versionfile_source".toList then some "gcs/_version.py".toList
  else if n = "versionfile_build".toList then some "gcs/_version.py".toList
  else if n = "tag_prefix".toList then some "v".toList else none

/-- The names for the example: a source tree in the directory `gcs`. -/
def exEntry : Dir → Str → Option Nat := fun dir name =>
  if dir = ["gcs".toList] then
    if name = "setup.py".toList then some 0 else if name = "setup.cfg".toList then some 1
    else if name = "gcs/_version.py".toList then some 2 else none
  else none

/-- The source tree, with this version file. -/
def exFS (t : Str) : FS := ⟨exEntry, [[], [], t]⟩

/-- Hard links to the three files in another directory, as `make_release_tree` makes them. -/
def exLink (dir : Dir) : Base := fun fs => (⟨fun d n => if d = dir then fs.entry ["gcs".toList] n else fs.entry d n, fs.texts⟩, none)

theorem exFS_whole (t : Str) : Whole (exFS t) := by
  intro dir name i h
  show i < 3
  have h : exEntry dir name = some i := h
  unfold exEntry at h
  split at h
  · split at h
    · cases h; omega
    · split at h
      · cases h; omega
      · split at h
        · cases h; omega
        · cases h
  · cases h

theorem exFS_configured (t : Str) :
    Configured (exFS t) (fun _ => some exOptions) ["gcs".toList] "gcs/_version.py" "v" "pep440" "" := by
  have he : exEntry ["gcs".toList] "setup.cfg".toList = some 1 := by decide +kernel
  have hr : (exFS t).read ["gcs".toList] "setup.cfg".toList = some [] := by
    simp only [FS.read, exFS, he]
    rfl
  have hc : ((exFS t).disk fun _ => some exOptions).cfg ["gcs".toList] = some (some exOptions) := by
    simp only [FS.disk, hr, Option.map_some]
  exact ⟨(by decide +kernel : (exEntry ["gcs".toList] "setup.py".toList).isSome = true), ⟨_, hc, by decide +kernel⟩, ⟨_, hc, by decide +kernel⟩,
    ⟨_, hc, by decide +kernel⟩, .inl ⟨_, hc, by decide +kernel⟩, .inr ⟨⟨_, hc, by decide +kernel⟩, rfl⟩⟩

theorem exFS_read (t : Str) : (exFS t).read ["gcs".toList] "gcs/_version.py".toList = some t := by
  have he : exEntry ["gcs".toList] "gcs/_version.py".toList = some 2 := by decide +kernel
  simp only [FS.read, exFS, he]
  rfl

theorem exLink_read (t : Str) (dir dir' : Dir) (name : Str) :
    (exLink dir (exFS t)).1.read dir' name = if dir' = dir then (exFS t).read ["gcs".toList] name else (exFS t).read dir' name := by
  unfold FS.read
  simp only [exLink]
  by_cases h : dir' = dir
  · simp only [if_pos h]
  · simp only [if_neg h]

/-- A case of C102_sdist: the file of the distribution is a hard link to that of the source tree, and only the former changes. -/
example (v : Dict) (x : Str) (hv : ("version".toList, JVal.str x) ∈ v) (git : Dir → Git) (script : Dir) :
    ∃ fs' y d, sdistRun ⟨fun _ => some exOptions, git, ["gcs".toList], script⟩ (fun _ => ["gcs-1".toList]) (fun g => (g, none)) exLink
        (exFS (versionFile v)) = ⟨fs', some y, none⟩ ∧ d.Perm v ∧
      fs'.read ["gcs-1".toList] "gcs/_version.py".toList = some (versionFile d) ∧
      fs'.read ["gcs".toList] "gcs/_version.py".toList = some (versionFile v) := by
  generalize ht : versionFile v = t
  have hr : (exFS t).read ["gcs".toList] "gcs/_version.py".toList = some (versionFile v) := by rw [ht]; exact exFS_read t
  obtain ⟨d, h1, h2⟩ := written_versions (exFS_configured t) hr git script
  obtain ⟨y, hy⟩ := Option.isSome_iff_exists.1 (get_isSome ⟨_, h2.mem_iff.2 hv⟩)
  obtain ⟨fs', g1, -, g3, g4, -⟩ := C102_sdist (fun _ => some exOptions) git ["gcs".toList] script (fun _ => ["gcs-1".toList])
    (fun g => (g, none)) exLink (exFS t) (exFS t) (exLink ["gcs-1".toList] (exFS t)).1 "gcs/_version.py" "v" "pep440" ""
    (exFS_configured t) d h1 y hy rfl (exFS_configured t) rfl
    (by
      intro dir name i h
      simp only [exLink] at h
      split at h
      · exact exFS_whole t _ _ _ h
      · exact exFS_whole t _ _ _ h)
    t (by rw [exLink_read, if_pos rfl]; exact exFS_read t)
  refine ⟨fs', y, d, g1, h2, g3, ?_⟩
  rw [g4 _ _ (by decide +kernel), exLink_read, if_neg (by decide +kernel)]
  exact exFS_read t

/-- The keywords of a version file that are not expanded. -/
def exLong : Str := "git_refnames = \"$Format:%d$\"\ngit_full = \"$Format:%H$\"\n".toList

theorem found_unexpanded (r f tagPrefix : Str) (h : "$Format".toList.isPrefixOf (strip r) = true) :
    versionsFromFound ⟨some r, some f, none⟩ tagPrefix = .error .notThisMethod := by
  unfold versionsFromFound
  rw [if_neg (fun h => nomatch h.1)]
  unfold versionsFromKeywords
  exact if_pos h

/-- A file from which no version can be read, as C102_freeze_forgets asks for. -/
example : NoVersionIn exLong := by
  have e : gitGetKeywords (some exLong) = ⟨some "$Format:%d$".toList, some "$Format:%H$".toList, none⟩ := by decide +kernel
  have e1 : searchJson "version_json = '''\n".toList exLong = none := by decide +kernel
  have e2 : searchJson "version_json = '''\r\n".toList exLong = none := by decide +kernel
  have e3 : "$Format".toList.isPrefixOf (strip "$Format:%d$".toList) = true := by decide +kernel
  refine ⟨fun tagPrefix => ?_, ?_⟩
  · rw [e]
    exact found_unexpanded _ _ _ e3
  · generalize exLong = t at e1 e2
    unfold versionsFromFile
    simp only
    rw [e1, e2]

end Version
end Gcs
