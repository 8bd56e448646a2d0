# Formal model of pearu/gcs

The code under `/repo` (read as text, never run) is modelled in Lean 4 under `lean/Verif`. The
properties are in `properties.jsonl`, the status of each in `MANIFEST.json`.

## Trusted base

* Lean's kernel (4.33.0). No axioms of our own, no `sorry`, no `native_decide`, no `bv_decide`.
  Theorems depend at most on `propext`, `Quot.sound`, `Classical.choice` (the gate's audit lists
  them). Concrete witnesses use `decide` / `decide +kernel` (kernel evaluation).
* The reading of the Python text by the definitions in `lean/Verif/Model`. Every definition cites
  the file and lines it models and says where it simplifies.
* Python semantics as encoded in `Model/Py.lean`: unbounded ints, floor division and modulo,
  list indexing with negative positions, exceptions by class only (messages dropped).

## What is modelled

| code | model |
|---|---|
| `gcs/slice_tools.py`, all functions but `show` | `Model/SliceTools.lean` |
| `gcs/storage.py`: free functions, `Buffer`, `Strided`, `COO`, `FlatCOO`, `CSR`, `DM`, the base class | `Model/Storage.lean` |
| helpers of `gcs/storage.py` that the classes do not call, `sort=True` | `Model/Positions.lean` |
| `for x in s`, `v in s` | `Model/Protocol.lean` |
| the assignment loop with its generators, one position at a time (`Model/Storage.lean` finds all first; C64 says that this is the same) | `Model/Lazy.lean` |
| the functions of `gcs/storage.py` that compare values, with any relation in the place of `==` (C93_same: with equality they are those of `Model/Storage.lean`) | `Model/PyEq.lean` |
| `Storage.__eq__`, `Storage.__ne__`, `Buffer.__eq__`, `_get_object_data` as `==` and `!=` call them: `NotImplemented`, the other operand, identity of the objects and of their `data` (C97) | `Model/EqOp.lean` |
| `Buffer` with any ints as size and offset (C98_natural: with natural ones it is that of `Model/Storage.lean`) | `Model/AnyBuffer.lean` |
| `copy` and assignments to the index arrays of a sparse storage, which copies share (C99_copy: without such assignments, `Model/Storage.lean`) | `Model/SharedIndices.lean` |
| `gcs_basics.py` | `Model/Basics.lean` |
| `test_gcs_basics.py`: how the examples make the lists of the format | `Model/GcsArrays.lean` |
| `gcs/_version.py` (the version string of the package); the output of git is an input | `Model/Version.lean` |
| `git_get_keywords` and the evaluation of `get_keywords` after `git archive` | `Model/Keywords.lean` |
| gcs/_version.py: `run_command`, `git_pieces_from_vcs` with its commands; what a command line does and `bytes.decode` are inputs | `Model/RunCommand.lean` |
| versioneer.py: `write_to_version_file`, `versions_from_file`, the written module, `get_versions`; module json as far as used | `Model/VersionFile.lean` |
| versioneer.py: `get_root`, `get_config_from_root`, `register_vcs_handler`, the beginning of `get_versions`; setup.py: the directory in which `setup_package` asks for the version; the parsed options are inputs | `Model/SetupConfig.lean` |
| versioneer.py: `get_cmdclass`, its commands and `write_to_version_file` on files with hard links; the commands of the other modules, the parsed options and the filled-in template are inputs | `Model/Commands.lean` |
| setup.py; what `setup` and `find_packages` do are inputs | `Model/SetupScript.lean` |
| versioneer.py: `do_setup`, `do_vcs_install`, `scan_setup_py`; the configuration and the filled-in template are inputs | `Model/Setup.lean` |
| `__repr__`, `__str__` of the storages, `show`; how values of the user are printed is a parameter | `Model/Text.lean` |
| lists and storage objects as elements, what `get_value` really returns | `Model/Objects.lean` |
| the class `C2SR` | `Model/C2SR.lean` |
| `fromobject` with the arguments `shape` and `get_seq_index` | `Model/Mapped.lean` |
| several objects, shared lists, sequences of operations | `Model/Heap.lean` |

Representation: a storage object is a *descriptor* (shape, strides, offset, index arrays) plus the
current contents `mem` of the one Python list it points to. Views share the list, other results
bring a list of their own (`Res.view`, `Res.fresh`). The heap model maps object references to
addresses of lists. Exceptions are values (`PyM = Except PyErr`). Assignments return the list as it
is when the exception is raised.

## What is not modelled

* The printing in `equal`, warnings, the fixed texts of the metadata in `setup.py`, the module configparser and what setuptools, distutils,
  cx_Freeze and py2exe do (the copies in `versioneer.py` of the functions of `gcs/_version.py` are the same text).
* Outside `Model/PyEq.lean` values are compared by decidable equality: Python `==` on values is assumed to be
  equality of interchangeable values (no NaN, no objects with a strange `__eq__`, and `1 == 1.0` count as the
  same value).  C93 has any relation in the place of `==`; that it returns a `bool` and does not raise is assumed there too.
* Negative sizes and offsets outside `Model/AnyBuffer.lean` (a storage around such a `Buffer`, negative lengths of axes); sizes
  that are not ints.  `True` and `False` are the ints 1 and 0.
* `get_value` returning a list or a storage as if it were an element value (an index shorter than
  the nesting): reported as `TypeError` in `Model/Storage.lean`. `Model/Objects.lean` has what the code
  does, with a value for each list and storage object; C68 says that the two agree where
  `Model/Storage.lean` does not raise. A stored storage object is a snapshot there (in Python it is live).

## Layout

* `Model/`: the code. Nothing there is a specification.
* `Spec.lean` (indices, selections, equations), `SpecArray.lean` (nested lists, storage objects as
  users see them: `shape` and `s[i, j]`, the index arrays), `SpecHeap.lean` (programs with several
  objects), `SpecMachine.lean` (a machine for whole programs). Nothing there uses the model's helper functions, only its data types, `getItem` with an
  int on every axis (as the meaning of "reading") and `elements`.
* `Lemmas/`: internal. `Storage.WF` is the invariant; `Lemmas/Keep.lean` and `Lemmas/KeepMake.lean`
  show that every operation that succeeds gives a `WF` object; C49 says what `WF` means to users.
* `Props/`: the theorems of `MANIFEST.json`, each followed by an example that meets its hypotheses.
  Theorems about storages have the hypothesis `s.WF mem`; by `World.Good.run` (Props/History.lean)
  it holds for every object of every program.
* `Conformance.lean`: the project's own tests (gcs/tests/test_storage.py), evaluated on the model by
  the kernel. A check of the reading of the code, not a proof of a property.
* `seeded/LOG.jsonl`: wrong variants of the model, and which theorems fail for them.

## How each property is proved

Specifications are written without the model's helper functions: Python list
slicing by the clamping rule of the language reference and a membership filter, "the index that a
selection maps to", row-major position as a Horner sum, and so on.

| property | what is modelled | how proved |
|---|---|---|
| C01-C03 | `reduced`, `nitems` | case analysis on all branches, linear arithmetic; selection compared with the filter specification of Python slicing |
| C04-C07 | `indexStrided`, `applySlices`, `normalizeIndex` | induction over the axes |
| C08 | `extgcd` | well-founded induction |
| C09, C10 | `initDioRec`, `initDiophantine`, `diophantine` | induction over the coefficients; kernel basis by Bezout |
| C11, C16 | Gauss elimination | row operations preserve the solution set of the homogeneous system; a zero pivot would give a kernel vector of a leading block, excluded by an argument on the original matrix |
| C12 | `solveIndex` | the kernel vectors solve the homogeneous equation; box check is the code's own |
| C13, C14 | `solveIndex` on slices of C-contiguous strides | the rational corner solution t* satisfies D t* = b k + s; `t_j - t*_j = -(e_j d_j + y_j Σ_{i>j} a_i e_i)/d_{j-1}`; bounds on the Bezout coefficients of `extgcd` give a value in (-1, 0] or (0, 1), so floor or floor+1 is the solution |
| C15 | same | computation |
| C17, C18 | `compressIndices`, `uncompressIndices` | loop invariant |
| C19, C20 | `Basics`, `reduceIndex`, `promoteIndex` | mixed radix per group, groups partition the axes |
| C21 | `makeStrides`, `getPosition`, `indexProduct` | induction over the shape |
| C22-C24 | `bsearch` | invariant of the binary search |
| C25-C30, C43, C50 | `fromObject` | refinement: each class against the abstract array (a function on the box) |
| C31-C35 | `getItem` | refinement with C04 and C14 |
| C36 | `getItem` on `dm` | general computation of the wrong address, witness |
| C37-C39, C48 | `setItem` | invariant of the write loop, distinctness of positions |
| C40, C41, C49 | heap model | frame lemmas, induction over histories |
| C42 | `copy` | C37 for the copy loop of `Strided`, maps for the others |
| C44-C46 | `elements`, `equal`, `isFull` | order and counting lemmas; for a `DM` the groups of axes are a permutation of the axes |
| C47 | `Buffer.getSlice` | arithmetic |
| C51 | `solveIndex` on column-major strides | computation |
| C52 | `Storage.eq` | cases on the class; equal windows give equal stored indices and values |
| C53 | `Storage.setItem`, `dmSetPlan`, `dmBuild` | the plan is the list of selected elements in row-major order of the `DM`; each write sets one cell (dense) or all stored cells (sparse, last one wins) |
| C54 | `equalNested` | C45 with C25 for the list |
| C55 | `World.step` on `convert` | the new name has the descriptor and the list of the old one |
| C56 | `assignShared` in programs | invariant of the write loop with values read from the changing list |
| C57 | `Storage.assign` with a scalar | the write loop fails at the first element with a place |
| C58 | `Storage.assignStore` | reading takes ints modulo the size of the axis (`Spec.wrapped`) |
| C59 | `fromObject` of lists that are not rectangular | `Spec.FirstShape`, `Spec.item`, `Spec.place` |
| C60 | `Storage.loop`, `Storage.contains` (the sequence protocol of Python, cut off after `k` steps) | induction over the steps, C31 for one step |
| C61 | Model/Positions.lean: helpers that the classes do not call | C12-C14, C20 |
| C62 | `COO.new`, `FlatCOO.new`, `CSR.new`, `Strided.new` on arguments of the user | the objects of C22-C24; soundness of the binary search without sortedness |
| C63 | `bsearch` in `getVal` of `COO`, `FlatCOO`, `CSR` | the set of list items that a search reads; width of a row of a `CSR` |
| C64 | `Storage.setItemLazy` | generators as lists of outcomes; the search succeeds once the slice is known; induction over the nesting of `DM` |
| C65 | `getVersions` in a work tree | `Spec.describeText` (what git prints), `Spec.versionText`; the two last hyphens of a text determine the groups of the pattern |
| C66 | `getVersions` in an archive | `Spec.decoration`; the first match in the sorted list is the smallest one |
| C67 | `storageStr`, `bufferRepr`, `stridedRepr`, `showLines` | `Spec.Shown` (shortened text); texts are split at the first comma, bracket or parenthesis that cannot be part of a number |
| C68 | `fromObjectObj`, `assignObj`, `assignStoreObj` | readers that agree where defined; an index with an int on every axis asks for the value at `()` only |
| C69 | `fromObject`, `getItem`, `assign` on the empty shape | computation; C37, C39 for assignments |
| C70 | `getItem`, `getSliceBuilt`, `convert`, `copy` in sequence | induction on the pipeline over C31–C35, C30, C44's lemmas |
| C71 | `C2SR` | computation; conversions by the shape of the loop over all indices |
| C72 | `getItem`, `setItem`, `elements`, `equal`, `convert` with `0` in the shape | `Spec.Meets`, `Spec.KeptBefore`: the strides that the index selects have a zero exactly if a kept axis is before an empty one; `init_diophantine` raises exactly then |
| C73 | `World.step` for every statement | refinement: `Refines` ties each list to an array of `Spec.Machine` (which position holds which index) and each object to a view; preserved by each statement with the same outcome |
| C74 | `DM.fromobject`, `as_DM` in programs | the machine of C73 does not look at these arguments |
| C75 | `World.step` for the statements that are not assignments | simulation between two machines of C73, one with all objects `Strided` |
| C76 | `fromObjectWith`, `fromObjectDMWith` | C17, C35, C49 for the object made; `Spec.Holds`: class, shape, elements, stored elements |
| C77 | `getVersions` for the other styles and for directory names | `Spec.Style.text`, `Spec.Style.untagged`: the text by cases; `Spec.Named`: the first of three names that starts with the prefix |
| C78 | the constructors | `Spec.Accepts`: the result when the condition holds, the exception otherwise |
| C79 | `repr` and `==` of all classes | reading the text from the left; `Spec.AllShown`, `Spec.Plain`, `Spec.tuple` |
| C80 | `World.step` with exceptions | `Spec.Machine.Runs`: C73 with the statements that raise; C59, C28, C06 for the single statements |
| C81 | `fromobject` of all classes, list by list | `Spec.Lists`, `asCOO`, `asFlatCOO`, `asCSR`, `grouped`, `metadata`, `cells` (Props/Contents.lean) |
| C82 | `Storage.getItem` of sparse classes, list by list | `Spec.SliceLists` and the lists of C81 |
| C83 | `gitGetKeywords` (regular expression), `getKeywords` (evaluation) | `Spec.file`, `Spec.Plain` |
| C84 | `normalizeIndex`, `applySlices`, `getItem`, `setItem`, error side | `Spec.First`, `Spec.refusal` |
| C85 | `getValueObj`, `fromObjectObj`, `assignObj`, error side | `Spec.Misses` |
| C86 | `Storage.getItem` of DM | `Spec.target`, `Spec.forgetful`, `Spec.forgetful2` |
| C87 | `Storage.bufferGetItem`, `Storage.setItem` of Buffer | `Spec.cell` |
| C88 | `dumps`, `loads`, `versionFile`, `versionsFromFile`, `pyLiteral`, `moduleVersions`, `setupVersions` | `Spec.Tame`, `Spec.HasQuotes`, `Spec.Readable`, `Spec.texts` |
| C89 | `setupVersions`, `getVersions`, `gitGetKeywords`, `getKeywords`, `versionFile` | `Spec.file`, `Spec.Other`, `Spec.NotJson`, `Spec.generations` |
| C90 | `gcsArrays`, `reducedDict`, `gcsLoop`, `createReductionMetadata`, `reduction`, `promotion`, `fromObjectDM` | `Spec.lastValue`, `Spec.RowHas`; dictionaries by induction, then C18, C19, C81 |
| C91 | `solveIndex`, `initDiophantine` | stated with all integer solutions of the equation; the elimination puts the last coefficient at the rounded upper corner (`last_coeff`), `lin_complete` |
| C92 | `doSetup`, `doVcsInstall`, `scanSetupPy` (Model/Setup.lean) | `Spec.HasLine`, `Spec.Word`, `Spec.Included`, `Spec.Marked`: lines and words described by what is around them; induction on lines |
| C93 | `fromObjectE`, `Storage.copyE`, `Storage.eqE`, `Storage.equalE`, `CSR.getSlice1E` (Model/PyEq.lean) | `Spec.put`, `Spec.shown`, `Spec.copied`: what becomes of one value; kept indices as a filter, `dmBuildWith_ok` with these functions |
| C94 | `DMMeta.new`, `Storage.getItem`, `Storage.setItem` of a `DM` | `Spec.target` and `Spec.wrapped`: the position in the wrapped storage; the writes in the order of the sources, the last write to a cell found by splitting the list |
| C95 | `World.step` with all statements but the assignments | `Spec.Arrays.step`: a list of plain arrays, one for each object, with `Spec.Plain.respecify` and `Spec.Act.apply` of C70; no lists, no sharing |
| C96 | `Storage.setItem`, `World.step` with `set` and `setFrom` | `Spec.CellAt` (whatever is written to the cell is read at the index), `Spec.Reach`, `Spec.NoCommonCell`, `Spec.AssignsFrom`, `Spec.Assignable`, `Spec.PlainAssignment`, `Spec.Independent`, `Spec.Ignores` |
| C97 | `Operand.eq`, `Operand.ne`, `Storage.dunderEq` | `Spec.Memory`, `Spec.Lives` (an identity belongs to one object), `Spec.NoSameObject`, `Storage.eqE` of C93 |
| C98 | `AnyBuffer` with its methods (Model/AnyBuffer.lean) | `Spec.cell` (the cell of a list that Python means by an int), `Spec.CellHolds`, `Spec.asAny` |
| C99 | `SharedObj.copy`, `SharedObj.run` (Model/SharedIndices.lean) | `HasPlace`, `Spec.HasEntries` (C62), `Spec.HoldsIndices`, `DistinctAddresses`, `Spec.indexLists`, `Spec.HasArray`, `Spec.HasIndices`, `Spec.arrayOf`, `Spec.cooIndices`, `cell` (C87) |
| C100 | `runCommand`, `piecesRun` (Model/RunCommand.lean) | `Spec.Decides`, `Spec.Core`, `Spec.Prints`, `Spec.IsText`, `Spec.Summary` |
| C101 | `getRoot`, `getConfigFromRoot`, `register`, `handlers`, `getVersionsSetup`, `setupPackageVersions` (Model/SetupConfig.lean) | `Spec.Project`, `Spec.HasOption`, `Spec.LacksOption`, `Spec.unquoted`, `Spec.OptionOrEmpty` |
| C102 | `FS`, `writeToVersionFile`, `buildPyRun`, `freezeRun`, `makeReleaseTree`, `sdistRun`, `versionRun`, `getCmdclass` (Model/Commands.lean) | `Spec.Whole`, `Spec.SameBut`, `Spec.NoVersionIn`, `Spec.Configured` |
| C103 | `splitLines`, `pyInt`, `restore`, `setupPackage`, `setupScript` (Model/SetupScript.lean) | `Spec.withoutManifest`, `Spec.NewPython`, `Spec.CondaIs`, `Spec.LinesOf`, `Spec.Requirements` |

Findings (defects of the code) are stated as properties of their own or as the negative half of a
property: C15, C16, C28 (all-unspecified matrix), C36, C38 (dropped writes), C39, C46 (slices of a `DM`), C48,
C51, C91 (column-major with any number of axes), C52 (reversed slices), C53 (element assignment, sparse storage in a `DM`),
C54 (sparse storages), C56 (overlapping slices), C57 (no broadcasting),
C58 (shape of an assigned storage not checked), C59 (extra items of ragged lists dropped), C60 (endless loops),
C61 (`get_index` ignores its offset), C62 (order of indices not checked), C65 (the tag `v`; tags with a plus sign),
C66 (tags in the order of texts; branches taken for tags), C83 (ref names with quotes), C92 (three defects of the installer),
C67 (`str` of rows without columns raises), C68 (a converted array without axes becomes the element of the new one),
C69 (`COO`, `CSR` and `DM` of a scalar raise),
C71 (a `C2SR` can be made, copied and compared with `==`, nothing else), C72 (slices of empty axes raise; `equal` ignores the shapes), C76
(`fromobject(s, shape=…)` of a storage object with a larger shape repeats the elements; of a list it raises).
