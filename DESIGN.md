# Formal model of beamconv: design

The code under study is `/repo` (AdriJD/beamconv, pinned commit), plain Python on
numpy / healpy / qpoint / mpi4py. The model is written in Lean 4 (4.33.0, with
Mathlib) under `/verif/lean/Verif`. Properties are listed in `properties.jsonl`,
their status in `MANIFEST.json`.

## Layout

* `Verif/Py.lean` — the few Python / numpy primitives the models use (exceptions as
  values, slices with clipping and negative indices, slice assignment that raises on
  a shape mismatch, `int()`, `ceil`, floor-mod).
* `Verif/Model/*.lean` — one file per area, one definition per Python function,
  each with a comment citing the lines it models and what it simplifies.
* `Verif/Spec/*.lean` — small specifications, written without using the model
  (e.g. "the list of chunks tiles [0,n)").
* `Verif/Lemmas/*.lean` — helper lemmas, not claims.
* `Verif/Props/*.lean` — the property theorems, one group per property id; each is
  followed by `example`s that its hypotheses hold in a concrete, non-trivial case.

## Plan per property

| id | modelled | proof idea |
|----|----------|------------|
| C01 | `distribute_array` slice arithmetic | telescoping of start/end over ranks, induction |
| C02 | `np.array_split`, `scatter_list` | equality with C01 slices |
| C03 | `nmax`, pass loop with the out-of-range pair replaced by `[None, None]` | ceil bound + C02 |
| C04 | `sub_size`, offsets, Allgatherv | prefix sums of sizes |
| C05 | per-rank accumulation, reduce | commutative monoid sums over the C02 partition |
| C06 | branches of `ScanStrategy.__init__` over rationals | case analysis |
| C07 | `partition_mission` | ceil arithmetic |
| C08 | `subpart_chunk` with its state | invariant: remainder = distance to next multiple of the period |
| C09 | C08 + `rotate_instr` + loop | refinement to `A[(t/n)%k]`; expected to fail for chunks inside one period: negation + partial |
| C10, C11, C12 | `angle_gen`, `step_array`, resets, `rotate_hwp` | invariant / refinement, induction on chunk list |
| C13 | `rotate_hwp` continuous branch | expected to fail (one sample repeated per boundary): negation + exact formula |
| C14 | `angle_gen` as a state machine | induction on n |
| C15 | ctime arithmetic | list append of ranges |
| C16 | allocation and slice writes of `_data` | C08 + slice assignment lemmas |
| C17, C43, C44, C45 | instrument as state machine over a heap of beams | invariants by induction on operations; violations recorded |
| C18, C19, C60 | healpy index functions, `trunc_alm`, `blm2bl` | bijection of triangular layout |
| C20, C21, C25 | `unpol2pol`, `shift_blm`, `blmxhwp` slice by slice | loop invariant over m |
| C22–C24, C26, C27, C35, C36 | algebraic functions over complex numbers | ring identities, matrix algebra |
| C28–C30 | `tukey_window`, `filter_ft_hwp`, `sawtooth_wave` | list reasoning, bounds on cos |
| C31–C34 | angle helpers over the reals | `Int.floor` mod, trigonometric identities |
| C37 | `transferMatrix`, `stackTransferMatrix` | list induction, matrix exponent of diagonal |
| C38–C42 | `Beam` object | state invariants, case analysis; violations recorded |
| C46–C48 | `_scan_detector`, `_scan_modulate_pa`, `scan`, spinmaps with abstract SHT | induction over ghosts / spins, linearity |
| C49–C51 | `implement_scan` | well-founded recursion, reshape lemmas |
| C52, C53 | schedule functions | loop invariant; violations recorded |
| C54 | `satellite_scan` lon/lat state | witness |
| C55 | passes with stored pointing | state machine |
| C56–C59 | `_init_spinmaps`, `init_spinmaps`, option handling, ghost generators | case analysis; violations recorded |
| C61, C62 | `l2_scan` with `ctime2bore`, position angle | reals, trigonometry; violations recorded |
| C63–C66 | `choose_HWP_model`, `stack_builder`, `compute_mueller`, `TransferMatrix` stacks | matrix algebra; passivity invariant by induction over layers gives regularity and energy balance |
| C67, C68 | loop over chunks with the state of rotations and pointing | refinement to a function of the sample number; violations recorded |
| C69 | `create_focal_plane` | index arithmetic of the grid on the heap model of the instrument |
| C70 | `_scan_detector` / `scan` with `ground` | case analysis, induction over ghosts; violations recorded |
| C71, C74, C75 | spin maps + `_scan_modulate_pa` as functions of the coefficients | sum over spins = sum over (l, m) of beam and rotated sky, conjugation symmetry |
| C72, C73 | spin maps with `hwp_mueller` | same, partial; violations recorded |
| C76–C81 | `gauss_blm`, `scale_blm`, `get_copol_blm`, `get_pol_beam`, `load_blm` with file contents as values | loop invariants over the coefficient layout; violations recorded |
| C82–C85 | `schedule_scan`, `parse_schedule_file`, `satellite_scan` over chunks | refinement to a function of the sample number for aligned chunks; violations recorded |
| C86–C90 | `bin_tod`, `allocate_maps`, `solve_for_map`, `preview_pointing` | induction over samples and calls; linear algebra of the 3x3 pixel matrices |
| C91–C93 | `filter_tod_hwp`, `filter_tod_highpass`, filters in `bin_tod` | discrete Fourier transform written out; roots of unity |
| C94, C95 | `Beam.polang_truth`, `get_offsets`, `blm` / `delete_blm` / `reuse_blm` life cycle | invariants over histories of operations |
| C96–C99 | `scan_instrument_mpi` as a whole: passes, chunks, sub-chunks, both detectors of a pair, binning, ranks, reduction | refinement: the state after k samples is a function of k; the maps are the sums over all (pair, sample) of the observations; induction over passes |
| C100, C101 | comparison of whole runs of `scan_instrument_mpi`: parts of a focal plane, orders, dead detectors, combinations of skies | the maps of C96 as sums over observations; linearity of spin maps, timelines and cells |
| C102, C103 | what `scan` returns and refuses | inversion of successful runs; induction over the entries of the dictionary |
| C104 | `BandAveragedMueller` with scipy `interp1d` and `trapz` written out; file contents as rows | induction over rows and samples; convex combination; C65 for energy |
| C105 | `scan_instrument_mpi` with the store of `save_tod` / `save_point` threaded through all loops | simulation: the run with store is the run of C96 together with the run of C16; erasure of the store for runs in general |
| C106 | all ranks together: each rank a program that makes collective calls, mpi4py as a function of the calls of all ranks, every interleaving a run of a transition system | simulation of the serial run of C96 by the joint run, induction over passes and chunks; a measure for termination; memory map read back by `Repeats` |
| C107 | all branches of `implement_scan` with `ctime_func` and `q_bore_func` as arguments, and the strategies of the package as such functions with their own attributes | C96 for any strategy whose pointing does not depend on earlier passes; values of chunks glued to values of the mission; C52, C53 for schedules; for satellites erasure of the resets when there is one pass |
| C108 | `scan_instrument_mpi` as calls with a result and with the values that the attributes may have while they are executed; any number of scans and resets before, complete or not | the values reachable differ from the start only in positions of generators, remainders and angles, which the resets set; the resets give the start of C96 |
| C109 | `scan_instrument_mpi` of C96 with the option `reuse_spinmaps` and the attribute `spinmaps` | scanning leaves spin maps alone; so passes with reuse equal passes in a world where making maps gives those that are there; C96 and C99 in that world |
| C110 | the model of C96 with `ground_alm` (the key `ground` of chunks, the pointing on the ground, the ground maps) | the chain of C96 with two pointings; the generic `implement_scan` on the ground is that on the sky of a twin site whose azel2bore is the ground pointing; vec is additive in the values |
| C111 | IEEE 754 rounding to nearest, ties to even, of rationals; `int(np.ceil(a/float(b)))` and `partition_mission` with it | the relative error is below 1/b of the distance to the next integer |
| C112 | the constructor and the truncations with IEEE rounding | monotonicity and relative error of rounding; violations by calculation |
| C113 | `ctime` with IEEE rounding | monotonicity and error bounds of rounding |
| C114 | trees of rounded additions | induction on the tree |
| C115 | the runs of C108 with the key `ground` of chunks | the reachable values differ from the start only in positions of generators, remainders, angles and in the keys of chunks; then as C110 from different states on different ranks |
| C116 | the loops of C96 with the filters of C91 and C92 in bin_tod; NaN as a mark | induction over subchunks, chunks, pairs and ranks with the filtered timeline as a function of the sample; linearity of the filters for cross-talk |
| C117 | init_detpair and init_spinmaps as programs on the heap of beams of C38, with the loader and _init_spinmaps as parameters | invariant about which beams have been read, loop over the unique ghost indices, induction over repetitions |
| C118 | the loops of C96 composed with init_detpair of C117 on the heap of beams; with MPI a rank works on a copy of the heap | a pass on objects simulates a pass of C96 with the spin maps of the pair; preparation of one pair keeps all other pairs prepared; induction over passes, ranks and scans |
| C119 | create_focal_plane (C69), Gaussian coefficients (C76), scans with objects (C118), convolution (C91) and map solution (C95) composed | the created pairs satisfy the hypotheses of the scans of objects; the convolution with an axisymmetric beam is the smoothed sky (C98); the specification gives grid, options and Gaussian window directly |
| C120 | MPIBase.__init__ and its collective helpers, mpi4py's calls by their MPI meaning | case analysis on the environment; induction over the members of the communicator for sums |
| C121 | the instruments of all ranks as a function of the rank, calls executed by all ranks in step | invariant over histories: all ranks hold the same instrument; the split of C01; for the scan C03 |
| C122 | solve_for_map with all its results on every process, on top of the set-up of MPI (C120) and the binned maps (C86, C88); qpoint's proj_cond external | the sums of maps hold the union of the observations; positivity of the matrix from three angles; the eigenvalues bounded by the values at the unit vectors |
| C123 | plot_iqu branch by branch with the variables that survive a round of its loop; plotting itself and matplotlib external: one record of everything they are given per file | induction over the rounds with an invariant for the surviving variables; the rounding from the floor of the logarithm |
| C124 | input_focal_plane of Model/FocalPlane, any reachable focal plane | the specification of building pairs applied to the rows of the tables |
| C125 | the choice of files by names, tag and pattern over an arbitrary directory; files that hold a dictionary, a sequence, the same dictionary twice, or something else; the variables that one file leaves for the next | lists and strings; the specification of building pairs applied to the chosen files; refinement to the calls in the histories of C17 |
| C126 | the layer matrices of the code against plane waves of Maxwell's equations in the specification | eigenvectors of the transfer matrix in the cases where the polarizations do not mix, and at normal incidence in any orientation |
| C127 | layer, stack and Jones matrices of the code; the textbook theory as a separate specification | the layer matrices are block diagonal; induction over the stack; the power carried through a film never grows, so the denominators do not vanish |
| C128 | the functions of transfer_matrix.py as modelled for C35, C64, C104 | possible light is the sum of the light of three fields, on which Mueller matrices act as Jones matrices; the possible Stokes parameters are a convex cone |
| C129 | the spin maps and the timeline as modelled for C71 to C75 | the timeline is computed for every plate and found to be that of another plate, given in closed form; the two plates are compared element by element |
| C130 | `set_hwp_mueller` with a list of all HWP objects, its order of effects and exceptions | by cases over the arguments and the outcomes; the presets by C64 |
| C131 | the optics as modelled for C34 to C37 and C64, the scan as for C71 to C75 | layers with aligned axes have transfer matrices of two blocks, which are the characteristic matrices of thin films; the Jones matrix is diagonal; its Mueller matrix is as C73 and C129 need it |
| C132 | both functions with their branches over `reflected` | by cases over the outcomes, and C35 for the relation between the matrices |
| C133 | the parallel branches of the pointing functions as programs for the machine of C106, the loops over passes and chunks | every collective call fits (as in C106), so that all ranks together do what each does alone; for L2 the first call that does not fit |
| C134 | the models of C119 with cross-talk | the samples of both detectors are those of one sky with scaled I and P; then as in C119 |
| C135 | the models of C118, C119 and C131 | behind such a plate a symmetric beam sees what a beam with scaled coefficients sees without Mueller matrix; then as in C119 |
| C136 | `satellite_scan` with MPI, jitter and one sequence of deviates per rank, on the machine of C106 | every rank sends what it computes from its own deviates, so the gathered pointing is that of one process with mixed deviates; then C133 |
| C137 | whole scans of C96 with spin maps made from coefficients (as C101) | spin maps are real-linear in the beam for every mode and Mueller matrix, the observations are combined sample by sample |
| C138 | stored scans of C105 with spin maps made from coefficients (as C101) | the detector angle enters a sample by exp(2 i psi) in front of the polarized spin maps only, which changes sign after 90 degrees; spin maps of intensity use I and V rows only, those of polarization the other two |
| C139 | spin maps made from coefficients (C57, C71) | values of spin maps use the modes within the band limit only; modes beyond the spins that are asked for never enter, also after shifts by 4; V that is not asked for counts as 0 |
| C140 | stored scans (C105) with qpoint's binning (Agree) | the record of each sample gives the observation that was binned; chunks tile the mission; sums do not depend on the order |
| C141 | whole scans (C96, C105) with the spin maps of the sky's coefficients | only l = m = 0 of I is nonzero, modes with azimuthal number s > 0 have no l = 0; the data are then a constant, which the normal equations recover |
| C142 | whole scans (C96) and quaternions (C26), with laws of qpoint about products of rotations | the observations of the two scans are equal sample by sample |
| C143 | whole scans (C96) and the map maker (C45), with a law of qpoint about its weights (Agree) | the accumulated vectors and matrices of the second scan are rotated ones; for whole turns all samples are the same |
| C144 | the model of input_focal_plane on the heap of beam objects, whole scans of beam objects (C119, C134, C135) | each row becomes a pair that shares the beam; then the theorems for lists of such pairs |
| C145 | kill_channels and remove_from_focal_plane on the heap of beam objects (C43, C44), whole scans of beam objects (C119) | the remaining pairs still share the beam; a counterexample for removed A detectors |
| C146 | the model of load_focal_plane on the heap of beam objects (C125), whole scans of beam objects (C119, C135) | every file becomes a pair that shares the beam; then the theorems for lists of such pairs |
| C147 | the model of transfer matrices (C37, C65, C66), thin films (C131) | each layer is carried to its transpose by the exchange of E and H and to its inverse by the reversal of H; induction over the layers; then the algebra of TranToJones and JonesToMueller |
| C148 | The harmonic form of the signal (C71) with coefficients times exp(-i s psi), compared with the form at another position angle; C142's law for qpoint; C119 for the maps. |
| C149 | The result of a scan is the map of a list of observations (C90's all_spec); samples that agree give the same observations; maps of permuted lists agree and those of appended lists add up. |
| C150 | Normal equations from C86/C96 and the law of the solver, the quadratic form of the projection matrix (C122), completing the square. |
| C151 | filter_ft_hwp as a product with a mask that depends on lengths and indices only (ft_mask), inverse transform of real gains (C91), Parseval's theorem. |
| C152 | Linearity of the filters (C151), the observations of a filtered scan (C116) and of the signals in the sky (C101), sample by sample. |
| C153 | The observations of a filtered scan (C116_any), sums of maps (C100) and best fits (C150). |
| C154 | The loops up to the first stretch that is refused, by induction; ranks without live detectors return; C151 for the three cases. |
| C155 | C150_noise: the error is the map solved from the noise alone, a linear function of it; expectation and covariance by linearity of the integral; the sum of the outer products of the weights is the inverse matrix; Gauss and Markov by a square that is not negative. |
| C156 | C98 for both scans; for the noise, C155 for both sets of samples, whose errors are linear in disjoint parts of the noise. |

## Where the code does not do what its users rely on

Each item is a theorem about the model (a negation with a concrete witness, or for all
inputs where it says so), found while trying to prove the property. The list is generated from the theorems' own comments.

* `C03_violation_no_scatter` — With `scatter=False` on more than one rank the number of passes is still divided by the number of ranks, so there are detector pairs that no rank ever works on.
* `C06_negative_violation` — Every negative duration is accepted and gives a negative number of samples (once it spans at least one sample), and a negative `num_samples` is accepted too, giving a negative duration or a negative sample rate.
* `C09_violation` — For every period of at least two samples and every list of at least two angles whose first two differ, cutting the first period of the mission in two chunks makes the instrument rotate in the middle of the period: the last sample of the period is observed at the second angle instead of the first.
* `C13_violation` — Whenever the plate does not turn an integer number of times per sample, and the mission is cut in at least two chunks, the first sample of the second chunk does not get the documented angle.
* `C17_violation_collision` — If the two live detectors of a pair have the same index, as all pairs made by `input_focal_plane` have (instrument.py:610-614), `data` for the first one returns the timeline of the second.
* `C17_violation_failed_add` — A call that fails because of `None` in the list leaves an identifier on the focal plane twice: identifiers are overwritten before anything else is checked.
* `C17_violation_input` — `input_focal_plane` gives both detectors of every pair the same identifier.
* `C24_iquv2ippv_violation` — The matrix returned by `iquv2ippv` is not the Mueller matrix in the (I, P, P*, V) basis: for the ideal half-wave plate diag(1,1,-1,-1) and the Stokes vector (0, 1, 0, 0) it gives a result other than the converted transformed vector.
* `C28_tukey_window_violation` — A window of one sample cannot be made: `tukey_window(1)` raises ValueError (`window[-0:] = window[:0]`).
* `C29_negative_left_violation` — If the band starts below index zero (low frequencies) and is not close to covering the whole array, everything is set to zero, the requested band included.
* `C29_single_mode_violation` — A width of 0 or 1 raises ValueError for every centre inside the array.
* `C31_south_pole_violation` — Declination -90 degrees is mapped to colatitude 0, the north pole, instead of `pi`.
* `C31_violation_twice` — The conversion overwrites its arguments: a second call with the same arrays, for instance for another resolution, gives the pixel of another direction.
* `C32_array_violation` — Both functions raise for every array whose length is not one.
* `C32_negative_violation` — Every negative angle that is not a multiple of `2 pi` is mapped to a negative angle; -1 is one.
* `C32_npi_multiple_violation` — `-n pi` is mapped to `n pi`, outside `[0, n pi)`.
* `C33_double_offset_violation` — `ctime2bore` converts a date that is already in DJD format once more, so that it evaluates the Sun's longitude 2415020 days too early; the resulting longitude is wrong for every time (it differs from the right one by no multiple of a full turn).
* `C34_array_violation` — With any number of times other than one the L2 scan raises NameError, whatever its arguments.
* `C34_pole_violation` — With the boresight on the spin axis and antisun angle 90 degrees, a quarter of a precession period after time zero the boresight vector is the south pole, so that the telescope should look at declination +90; the declination returned is -90.
* `C36_mueller_rotation_violation` — `MuellerRotation` does not leave the identity unchanged: entry `(2, 2)` of the rotated identity is `cos(4 t)`; at `t = pi/4` (45 degrees) it is -1.
* `C38_violation_reuse` — `reuse_blm` breaks the numbering: the ghost of the second beam takes index 1 although that beam has a single ghost.
* `C40_violation_lmax_none` — The documented `lmax=None` of the constructor ("If None, use 1.4*2*pi/fwhm") never works: the setter of `lmax` runs before the width is known and raises AttributeError, whatever the width.
* `C40_violation_lmax_zero` — `Beam(lmax=0)` without a width raises TypeError although 0 is a valid band limit.
* `C40_violation_negative_mmax` — A negative `mmax` is accepted.
* `C40_violation_reassign` — Lowering `lmax` of an existing beam leaves `mmax` above it.
* `C41_violation_not_inherited` — The documentation says that unspecified options are copied from the parent, but `sensitive_freq`, `symmetric`, `hwp`, `hwp_mueller` (and `idx`) of a ghost always have the default of the constructor, whatever the parent's value.
* `C42_violation` — C42 is false for files with only the unpolarized response and `normalize`. A beam with amplitude 1/2 has monopole 1.
* `C43_violation_failed_create` — `create_focal_plane` with an invalid option raises TypeError and leaves a detector count of 2 without any detector.
* `C43_violation_input` — Arrays of different lengths are cut to the shortest, the count follows the first.
* `C43_violation_remove_none` — Removing the "pair" of a lone detector, given as it stands on the focal plane (`[beam, None]`), also counts the empty slots of the other pairs.
* `C44_violation_empty_slot` — With single detectors (`[beam, None]`), as `add_to_focal_plane` makes them, the numbers drawn point to empty slots: killing all detectors raises AttributeError after the first, and the second detector cannot be reached by any draw of one.
* `C45_violation_add_ghosts` — `add_to_prop` with `incl_ghosts` adds to the detectors but overwrites the ghosts: the detector goes from 1 to 5/4, its ghost from 1/2 to 1/4.
* `C45_violation_random` — `set_global_prop_random` is meant to add Gaussian noise of the given size; its deviates for the detectors (not for the ghosts) have mean one, so that even a noise realisation of zero shifts every detector by the full size.
* `C50_violation_short_check` — A check interval shorter than a sample raises ZeroDivisionError.
* `C50_violation_staring` — With zero throw (staring), any chunk whose length is not a multiple of the check interval raises ValueError.
* `C51_violation_no_effect` — `cut_el_min` has no effect: for every input the scan with it is the scan without it, and the flags of the strategy are never touched.
* `C52_violation_coverage` — C52 is false for some chunk sizes. Two scans of 10 samples, a mission of 11 samples and chunks of 4: the last sample of the mission is in no chunk.
* `C52_violation_empty` — C52 is false for scans with fractional numbers of samples. A scan of 8.5 s at 1 Hz with chunks of 4 has an empty chunk.
* `C52_violation_index` — C52 is false if the schedule contains a scan of zero duration. The chunk of the last scan has index 2, but there are only two entries: its parameters cannot be looked up.
* `C53_violation` — C53 is false for intervals that contain north. A scan from 350 to 10 degrees (20 degrees through north) sweeps through the south: its second sample is at 237 degrees, its third one at 123.
* `C54_violation` — C54 is false for the longitude. Two samples per day: the longitude goes backwards by about one degree, from 0 to 359.0137; the next chunk of two samples starts at 0.9863 instead.
* `C54_violation_direction` — C54 is false for the direction of the precession. With eight samples per precession period, the latitude after the first four samples is descending, and in one chunk of eight samples that of sample 4 is 0; in chunks of four samples, the second sample after the fourth is at the maximum `alpha`, in one chunk it is negative.
* `C55_violation_ground` — With a memory map and ground pick-up, the second detector pair is scanned with the ground pointing of the last chunk in all chunks: here the first chunk of the second pass has other ground pointing than without memory map, and even another number of samples.
* `C56_violation` — C56, violation: with a finite sky, none of the first `len(alm)` rows of the beam is looked at: whatever is in a beam with no more rows than the sky is accepted.
* `C57_reuse_violation` — C57, violation: three ghosts of which the second reuses the coefficients (and so the index) of the first have indices 0, 0, 2: initializing the spin maps fails, whatever the maps are.
* `C58_ctime0_zero_violation` — An explicit start time zero (the unix epoch) is replaced by the current time.
* `C58_hwpang_rotating_violation` — A chunk's own plate angle `hwpang` is kept as long as the boresight does not rotate. With rotation no subchunk has it any more, so that the chunk is scanned with the angle of the strategy.
* `C58_hwpang_zero_violation` — An explicit `hwpang = 0` is ignored: whenever the strategy's current angle is not zero, that one is used instead.
* `C58_location_zero_violation` — An explicit latitude 0 (the equator) is ignored: the South Pole telescope stays at the pole; a location that is not predefined then raises AttributeError.
* `C59_violation_accumulates` — The second ghost does not have the base amplitude plus its own draw.
* `C60_wraparound_violation` — For `m = 2 lmax + 3` the end of the slice becomes negative and wraps around: `blm2bl(blm, m=9)` with lmax = 3 returns the first five coefficients (of other modes) and, with `full`, raises ValueError.
* `C61_arguments_ignored_violation` — The opening angles, rates and jitter given to `l2_scan` have no effect on the boresight.
* `C67_violation` — Two successive calls of `scan_instrument_mpi` with the same arguments need not store the same timeline: the state of the instrument rotation is only reset between the passes of one call (`if bidx > 0`, instrument.py:1848-1852), not when a call begins.
* `C68_violation_generic` — The azimuth profile and the elevation checks start again with every chunk: cutting five samples in 3 and 2 changes the pointing of the samples 3 and 4.
* `C68_violation_strictly_az` — `strictly_az` starts again at `az0` with every chunk: three samples in one chunk, or as 2 and 1.
* `C70_ghost_violation` — C70, violation: with a ground signal a live ghost measures the ground instead of the sky: the timeline is 1 + 100 + 100 and not 1 + 100 + 10 (or 1 + 100 + 10 + 100).
* `C70_ground_beam_violation` — C70, violation: with a ghost the ground maps are made with the beam of the ghost.
* `C70_ground_coefficients_violation` — C70, violation: with a ghost the ground maps of `init_spinmaps` are made with the coefficients and the azimuthal range of the ghost, but with the symmetry and the Mueller matrix of the main beam.
* `C70_save_point_violation` — C70, violation: with a ground signal, saving the pointing never succeeds.
* `C72_violation` — A symmetric detector at 45 degrees, a HWP that stays at angle 0 and a sky of one E mode: without Mueller matrix the detector measures 0, with the identity as Mueller matrix it measures -3 as if its polarization angle were 0.
* `C73_violation` — A plate that couples U and I in its own frame, a sky with one mode of I: the detector measures 3 at every HWP angle, although the beam behind the plate changes with that angle and the convolution gives `3 - 3/2 sin 2` at HWP angle 1.
* `C77_violation` — C77 is false for files with three rows. With `cross_pol=False` the polarized rows of the file are used although they are not the co-polar ones of its first row.
* `C78_violation` — C78 is false with `deconv_q`. The array of the caller is changed, and a second call with the same array gives another result.
* `C79_violation` — C79 is false with `normalize`. The U beam is divided by its own monopole, not by that of the Q beam: every factor in front of it is lost.
* `C80_violation` — C80 is false for .fits files whose tables have different `lmax`. Both tables have `mmax` 1; the second one, with `lmax` 2, has the coefficient 5 at (1, 1), but the row made of it has it at (3, 0), and 0 at (1, 1).
* `C81_violation` — C81 is false. For every .fits file, a name without extension is an error if there is no .npy file, although the .fits file can be read under its full name.
* `C82_violation` — C82 is false. A scan of 8 samples at 2 Hz between 0 and 6 degrees in one chunk, and its second half as a chunk of its own: the samples 4 to 7 have other azimuths.
* `C83_violation` — **C83 is false for a file with a single line**: reading it is an error.
* `C84_violation` — C84 is false. Every chunk starts with azimuth 0: with a spin period of four samples and chunks of two, the third sample of the mission has azimuth 0 instead of 180.
* `C85_violation` — C85 is false. The same chunk of two samples in the passes for the first and the second pair of detectors: the longitude of the first sample is 0 in the first one and 0.9863 in the second one.
* `C85_violation_jitter` — C85 is false with jitter. Two passes over the same chunk, for two pairs of detectors, see each sample at different elevations unless the normal deviates repeat themselves: the jitter is not that of the telescope, every pair of detectors has its own.
* `C90_violation` — Flags that are given as an array of more than one element are rejected, although the argument is documented as an array of the size of `tod`.
* `C91_backwards_violation` — For a plate that turns in the other direction (a negative frequency, which `set_hwp_mod` takes) the filter sets every timeline to zero, with the signal at four times the HWP frequency in it, once there are two revolutions.
* `C91_short_violation` — In a timeline in which the plate makes less than a tenth of a revolution (such as the last chunk of a mission that is a few samples longer than a multiple of the size of chunks) the filter raises ValueError.
* `C91_violation` — If five times the HWP frequency is above the Nyquist frequency, the window is cut off at the end of the spectrum and is no longer centred on 4f: with 2 Hz sampled at 17 Hz for one second the 4f mode (the highest one) is removed although it is below the Nyquist frequency.
* `C92_violation` — With cutoff 0, which keeps all frequencies, all samples become NaN.
* `C95_violation_ghost` — On a ghost `delete_blm` always raises AttributeError (a ghost has no list of ghosts), after its coefficients have been removed.
* `C99_again_violation` — Without these resets a second scan goes on where the first one stopped: with boresight angles 10 and 20 deg, for one sample each, the only sample of the mission is scanned at 10 deg the first time and at 20 deg the second time.
* `C99_ground_violation` — A later scan of such chunks without a ground fails, for every live detector: there are no maps of the ground.
* `C99_second_beam_violation` — The beam of the second detector of a pair has no effect: only spin maps of first detectors are made and used.
* `C99_unpaired_violation` — A pair without first detector cannot be scanned.
* `C104_violation_passband_units` — The documentation asks for the passband in GHz and for everything else in Hz, but the code compares the two directly: for every band above 1 GHz and every passband file with frequencies (in GHz) below a million, the call fails with ValueError.
* `C104_violation_upper_edge` — **C104 (violation: the upper edge).** "The highest frequency to integrate over" is never looked at, nor is anything above the last sample. A source that shines only in the upper half of the band has a positive integral over it, but with two samples there is no finite result, for any stack.
* `C105_ground_violation` — C105 does not hold with a ground. With `ground_alm` and `save_point` no scan of a live detector succeeds (NameError: `_scan_detector` uses `cidx` before it is set).
* `C106_hang_violation` — Two ranks scan one pair each. If the spin maps of the pair of the second rank cannot be made, because the pair has no first detector or for any other reason, that rank raises an exception and the first rank waits for it forever, whatever the schedule.
* `C107_ground_violation` — C107 is false for ground templates with external pointing. `implement_scan` does not hand `ground` on: unless the function of the user does it unasked, there is no ground pointing, and every scan of a ground template fails.
* `C107_l2_violation` — C107 is false for L2 scans. If the first chunk has two or more samples, every scan raises NameError.
* `C107_satellite_violation` — C107 is false for several pairs on a rank of a satellite scan. The second pass over the same two samples points elsewhere, because longitude and latitude go on from the end of the first pass.
* `C108_leftover_violation` — If the maps are not allocated again, what was binned before the interruption counts twice: a rank is stopped after the first chunk of its first pair, and resets everything else.
* `C108_satellite_violation` — A satellite does not come back: no pointing is restored by `reset_el_steps`, because longitude and latitude go on from where they are.
* `C109_ranks_violation` — Two pairs with different beams, scanned with `reuse_spinmaps`: with one rank the second pair gets the signal that the beam of the first pair would measure, with two ranks its own.
* `C110_preview_violation` — A preview (C97: no signal) with a ground template is not without signal: if there are spin maps from an earlier scan, the ground seen through the main beam is scanned and binned.
* `C111_violation` — Above 2^53 samples are lost: 2^53 + 1 samples in chunks of one sample.
* `C112_step_violation` — A plate that steps with 0.1 Hz at 19.7 samples per second steps after 196 samples instead of 197.
* `C112_violation` — A mission of 29 samples at 100 Hz lasts 0.29 s, but a mission of 0.29 s at 100 Hz has 28 samples, and asking for 0.29 s, 100 Hz and 29 samples is refused. With a boresight period or check interval of 0.29 s the steps are of 28 samples, and of 100 detectors a fraction of 0.29 is 28.
* `C113_violation` — At 10 MHz successive samples have the same time.
* `C114_violation` — The sums themselves do depend on the grouping, and so maps on the number of ranks: 0.1, 0.2 and 0.3.
* `C115_kept_violation` — The resets and new maps are not enough for a scan without ground after one with a ground, without boresight rotation: the chunks keep the key `ground`, and every pass over a live detector fails.
* `C116_backwards_violation` — With a plate that turns backwards by two or more revolutions per stretch, `filter_4fhwp` removes the signal: the scan returns, with all the hits, and the binned signal is zero in all pixels, whatever the sky.
* `C116_chunks_violation` — Unlike without filters (C96), the maps depend on how the mission is cut in chunks: the same motion of the telescope over the same sky, in two chunks or in three, with `filter_highpass`.
* `C116_cutoff_zero_violation` — With cutoff 0 in `filter_dict`, which leaves the timeline as it is apart from its mean in the formula for the filter, the scan returns without an error, and there are NaN in the signal of the maps as soon as there is one live detector and one sample.
* `C117_blind_violation` — What this means for a beam that is symmetric around its axis (but not declared `symmetric`): with an azimuthal limit below 2 the detector does not see the polarization of the sky at all: it measures the same of every other sky with the same intensity.
* `C117_fits_violation` — The main beam of A is read from a FITS file with azimuthal limit 0. In the first preparation its maps are made with the azimuthal numbers up to 5, in all later ones with those up to 0: the file was read after `mmax` was looked at, and lowered it.
* `C117_handmade_violation` — The first preparation uses the coefficients (object 9) that were assigned to `beam.blm`, and deletes them; the next ones use a Gaussian beam.
* `C117_polarization_violation` — With the azimuthal limit 4 of its coefficients the detector sees a sky of one E mode, with the limit 0 it sees nothing.
* `C117_unused_violation` — A ghost of B whose file cannot be read stops the preparation, although the maps of B are those of A and of the ghosts of A.
* `C118_fits_violation` — A detector whose FITS file has azimuthal limit 0, with limit 4 itself, sees a polarized sky: the first sum of pixel 0 is 2. The second scan without MPI gives 0, with MPI again 2.
* `C118_second_violation` — With a coarse main beam the second scan without MPI uses another azimuthal limit than the first one (`sm'` instead of `sm`), and than the second scan with MPI.
* `C120_violation_comm_ignored` — A communicator given by the user is ignored without a word if the program was started by anything that does not set the two variables: every process of it is rank 0 of 1, so each of them takes the whole of every array as its share and each returns its own part of the sum as the total.
* `C120_violation_left_out` — A process that is left out of the user's communicator, and so gets `COMM_NULL` for it, joins `COMM_WORLD` instead: it believes to be one of all processes, which no other process takes part in.
* `C121_violation_idx` — Two scattered creations give detectors of different ranks the same index.
* `C121_violation_kill` — Killing one detector of a scattered focal plane raises an IndexError on the ranks that hold fewer pairs, and kills a detector on every other rank.
* `C121_violation_passes` — After scattering at creation the ranks do not even make the same number of passes in a scan, although each pass contains calls that all ranks have to make together.
* `C121_violation_scan` — Once the detectors have been scattered over two or more ranks when they were created or loaded, a scan misses detectors, whether it is told to scatter or not: there is a pair that no rank ever works on.
* `C123_violation_carried` — Violation: limits that are left to the data, by `min=None` and `max=None`, are those of the first map for all maps, and masked pixels count: the call is the one with these two numbers as limits.
* `C123_violation_clash` — Violation: limits in the dictionary of the first map are refused.
* `C123_violation_clipped` — Violation: the rounded limits need not contain the data: 14 is rounded to 10.
* `C123_violation_dpi` — Violation: the resolution that is asked for is not used at all.
* `C123_violation_four_scalar` — Violation: a single symmetric limit cannot be used for four maps.
* `C123_violation_fourth` — Violation: with dictionaries at most three plots are made, whatever the number of maps: Stokes V is left out silently.
* `C123_violation_function` — Violation: a plotting function that is given for the first map only is used for all maps.
* `C123_violation_scalar` — Violation: a single symmetric limit is ignored unless `symmetric` is set.
* `C123_violation_zero` — Violation: if the first map has the value zero as its smallest one, limits that are left to the data end the call before anything is plotted.
* `C124_violation_again` — The second call of the same kind makes detectors with the numbers and the names of the first ones.
* `C124_violation_ignored` — Options that are documented as ignored end the call with a TypeError, after the detectors that are not made have been counted.
* `C124_violation_replace` — The focal plane cannot be replaced: `combine=False` always ends with a NameError, and nothing has happened.
* `C125_violation_empty` — An empty list of names loads all files of the directory.
* `C125_violation_other` — A file that holds neither a dictionary nor a sequence repeats the detectors of the file before, with angles shifted once more.
* `C125_violation_silent` — If none of the given names contains the tag, nothing is loaded and no error is raised; without `combine` the focal plane is empty afterwards.
* `C125_violation_twice` — A file that holds the same dictionary twice makes two detectors with the same number and the angle of B, and both are dead if only B should be.
* `C126_violation_lossy` — In a material with losses no thickness carries the wave at normal incidence: the code damps it in the layer but meets it at the interfaces as if there were no losses.
* `C126_violation_oblique` — With the axis in the plane of incidence and oblique incidence, some wave in the crystal is not carried: the code turns displacements to fields with the effective index.
* `C128_violation_rotation` — `MuellerRotation` makes impossible light: fully polarized light comes out of a plate that does nothing, turned by 22.5 degrees, with more polarization than light.
* `C129_violation` — A detector at 45 degrees behind a plate with leakage of I into Q, a sky with one mode of I: the detector measures 3 at every HWP angle, although the convolution gives `3 - 3/2 sin 2` at HWP angle 1.
* `C131_violation` — A detector at 90 degrees behind a clear window (a layer of one index, two half wavelengths thick, which changes nothing), a sky with one mode of E: the detector measures -3 where it should measure 3.
* `C132_empty_violation` — C132, no layers. A stack without layers has no matrices: both functions raise AttributeError, because the exit angle is set in the loop over the layers.
* `C132_violation` — `Mueller` does not: for every stack that has matrices it raises NameError, because the exception it means to raise is misspelt.
* `C133_l2_fails_violation` — C133 is false for L2 scans (longer chunks). If the first chunk has two samples or more for every rank, then all ranks raise NameError, whatever the schedule: nothing is ever mapped.
* `C133_l2_violation` — C133 is false for L2 scans. If the first chunk has fewer than two samples per rank, but not exactly one, then some ranks have one sample to point and the others none or two. The latter raise NameError, and one with one sample waits for them forever, whatever the schedule.
* `C145_violation_removed` — If the A detector of the first pair is taken away and its B detector stays, no scan is possible: `scan_instrument_mpi` ends with an AttributeError.

## What is modelled

One definition per Python function, in the file named; each definition cites its lines.

| code | model |
|------|-------|
| `tools.py`: `trunc_alm`, `shift_blm`, `unpol2pol`, `blm2bl` | `Model/Alm.lean`, `Model/Spin.lean` |
| `tools.py`: `gauss_blm`, `scale_blm`, `get_copol_blm`, `get_pol_beam` | `Model/BeamCoef.lean` |
| `tools.py`: `spin2eb`, `eb2spin`, `iquv2ippv`, `ippv2iquv`, `mueller2spin` | `Model/Spin.lean` |
| `tools.py`: `radec2colatlong`, `radec2ind_hp`; `scanning.py` (all functions); `l2_scan` in `instrument.py` | `Model/Angles.lean` |
| `tools.py`: `angle_gen` | `Model/Gen.lean` |
| `tools.py`: `quat_*` | `Model/Quat.lean` |
| `tools.py`: `sawtooth_wave`, `cross_talk`, `tukey_window`, `filter_ft_hwp` | `Model/Signal.lean` |
| `tools.py`: `filter_tod_hwp`, `filter_tod_highpass`; `set_filter_dict`, filters in `bin_tod` | `Model/Filters.lean` |
| `detector.py`: class `Beam` | `Model/Beam.lean`, `Model/BeamCoef.lean` |
| `detector.py`: class `HWP` | `Model/HwpModels.lean` |
| `detector.py`: `Beam.set_hwp_mueller` | `Model/PlateSetting.lean` |
| `transfer_matrix.py`: `Jones`, and `Mueller` for values of `reflected` that are not Boolean | `Model/Jones.lean` |
| `instrument.py`: the parallel branches of `strictly_az`, `satellite_scan`, `schedule_scan`, `l2_scan`, and scans with them on several ranks | `Model/Crew.lean` |
| `transfer_matrix.py`: materials, layers, stacks, `TransferMatrix`, `Mueller` and their rotation | `Model/Optics.lean` |
| `instrument.py`: `MPIBase` | `Model/Mpi.lean`, `Model/MpiSetup.lean` |
| `instrument.py`: `Instrument` (focal plane, ghosts, properties, killing) | `Model/FocalPlane.lean`, `Model/LoadPlane.lean` (choice of files), `Model/Ranks.lean` (many ranks), `Model/Init.lean` |
| `instrument.py`: `ScanStrategy.__init__` | `Model/Init.lean` |
| `instrument.py`: `partition_mission`, `subpart_chunk`, `_chunk2idx` | `Model/Chunks.lean` |
| `instrument.py`: `set_instr_rot`, `rotate_instr`, `set_hwp_mod`, `rotate_hwp`, `step_array`, resets | `Model/Chunks.lean`, `Model/Hwp.lean`, `Model/Step.lean` |
| `instrument.py`: `implement_scan`, `strictly_az` | `Model/ImplementScan.lean` |
| `instrument.py`: `satellite_scan` | `Model/Satellite.lean` |
| `instrument.py`: `parse_schedule_file`, `partition_schedule_file`, `schedule_scan` | `Model/Schedule.lean` |
| `instrument.py`: `_init_data`, `_allocate_*`, `data`, `_update_tod`, saving in `scan` | `Model/Data.lean` |
| `instrument.py`: `_scan_detector`, `scan`, `_scan_modulate_pa` | `Model/Timeline.lean` |
| `instrument.py`: `init_spinmaps`, `_init_spinmaps`, `blmxhwp`, `spinmaps_*` | `Model/Spinmaps.lean`, `Model/Spin.lean` |
| `instrument.py`: `allocate_maps`, `bin_tod`, `solve_for_map` | `Model/MapMaking.lean`, `Model/Solve.lean` |
| `instrument.py`: `scan_instrument_mpi` (with `init_detpair`) as a whole | `Model/ScanInstrument.lean`, `Model/ScanObjects.lean` (beam objects), `Model/ScanStored.lean` (saving), `Model/ScanFiltered.lean` (filters), `Model/Detpair.lean`, `Model/Interrupted.lean` (stopped runs), `Model/Spmd.lean` (communicating ranks) |
| `instrument.py`: branches of `implement_scan`, functions of the strategies | `Model/Strategies.lean` |
| `plot_tools.py` (all functions) | `Model/Plot.lean` |

## What is not modelled

* `instrument.py`: printing of messages, timing and memory reports.
* `beamconv/test.py`, `tests/`, `scratch/` and `notebooks/` of the repository.
* Threads inside healpy / qpoint, and failures of MPI itself.

## Laws assumed of libraries

They are hypotheses of the theorems that need them (never axioms), and each is met by a
concrete instance in an `example`.

* `ExtOk` (`Spec/Timeline`): pixel numbers returned by qpoint's `bore2pix` and by healpy's
  interpolation weights are pixels of the map.
* `Harmonics`, `Conjugation`, `Vanishing` (`Spec/Spinmaps`): the transforms of healpy are sums
  of coefficients times spin-weighted harmonics, whose values are arbitrary complex numbers
  with `conj Y(s,l,m) = (-1)^(s+m) Y(-s,l,-m)` and `Y(s,l,m) = 0` for `l < |s|`.
* `PixOk` (`Spec/MapMaking`): pixel numbers used by qpoint's binning are pixels of the map.
* `SolveOk` (`Spec/MapMaking`): qpoint's `solve_map` solves the 3x3 system of every observed
  pixel with a regular matrix and fills empty pixels.
* `Agree` (`Spec/MapMaking`): for rotations, `bore2pix` and the binning of qpoint use the same
  pixel and angle for the same pointing, offset and HWP angle.
* `numpy.fft.rfft` / `irfft`: the discrete Fourier transform as documented, in exact
  arithmetic.
* mpi4py: `Allgatherv`, `Reduce`, `scatter`, `bcast` as documented.

## Trusted base

* Lean's kernel (4.33.0) and Mathlib's definitions used in the statements.
* The axioms each theorem depends on are listed in `AXIOMS.txt` (output of
  `#print axioms` for every theorem named in `MANIFEST.json`): at most `propext`,
  `Classical.choice`, `Quot.sound`. No `sorry`, no own axioms, no `native_decide` /
  `bv_decide`.
* The reading of the Python source that the definitions record (each cites its lines).
* Floating point numbers are modelled by exact rationals, reals or complex numbers;
  rounding, overflow and NaN propagation are not modelled except where stated (the NaN of
  C92 is an explicit value).  `Model/Double.lean` models counts, times and sums once more with the
  rounding of IEEE 754 binary64 (exponents unbounded), and C111 to C114 say how far the exact results
  hold there.
* numpy, healpy, qpoint and mpi4py are not modelled beyond the documented behaviour of
  the calls used (see the laws above).

## Tests of the theorems against wrong programs

`seeded/LOG.jsonl` has one line per wrong program that was tried: the edited definition,
the edit, the claim it breaks, the theorems that no longer check, and the theorems that
were added or tightened because the wrong program was accepted.
