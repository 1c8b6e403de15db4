{"id": "C01", "title": "Arrays distributed over ranks are partitioned, in order and evenly", "statement": "When every rank calls distribute_array on the same array, the per-rank results concatenated in rank order are exactly the input array (nothing lost, duplicated or reordered), and the number of elements held by any two ranks differs by at most one.", "quantifier": "every array (any length, including shorter than the number of ranks) and every number of ranks >= 1", "why_tests_cant": "a test fixes a rank count and a length; the remainder arithmetic has to be right for every pair", "anchors": ["beamconv/instrument.py:MPIBase.distribute_array"]}
{"id": "C02", "title": "Scattered lists are partitioned and agree with distributed arrays", "statement": "scatter_list of a list over the ranks gives every rank the same elements distribute_array would give it, so each element lands on exactly one rank.", "quantifier": "every list and every number of ranks >= 1", "why_tests_cant": "needs all (length, ranks) pairs; CI runs with one rank", "anchors": ["beamconv/instrument.py:MPIBase.scatter_list", "beamconv/instrument.py:MPIBase.distribute_array"]}
{"id": "C03", "title": "Every detector pair is scanned exactly once and all ranks stay in lock step", "statement": "With scattering enabled, scan_instrument_mpi visits each detector pair of the focal plane exactly once over all ranks, in list order within a rank, and all ranks execute the same number of passes (so collective calls match up).", "quantifier": "every focal plane size and every number of ranks", "why_tests_cant": "number of ranks and pairs unbounded; CI has one rank", "anchors": ["beamconv/instrument.py:ScanStrategy.scan_instrument_mpi", "beamconv/instrument.py:MPIBase.scatter_list"]}
{"id": "C04", "title": "Pointing computed in parallel equals pointing computed serially", "statement": "The boresight pointing of a chunk assembled from the per-rank slices (each rank computing its own sub-range and gathering at its own offset) is on every rank the same array a single-process run computes.", "quantifier": "every chunk length and every number of ranks", "why_tests_cant": "needs a rank count sweep and MPI", "anchors": ["beamconv/instrument.py:ScanStrategy.implement_scan", "beamconv/instrument.py:ScanStrategy.satellite_scan", "beamconv/instrument.py:ScanStrategy.schedule_scan"]}
{"id": "C05", "title": "Global maps do not depend on the number of ranks", "statement": "The accumulated vector and projection maps after the final reduction equal the sum of the contributions of all detector pairs and chunks, whatever the number of ranks the pairs were scattered over (exact arithmetic).", "quantifier": "every list of pair contributions, every number of ranks", "why_tests_cant": "CI has one rank; order and grouping of sums is unbounded", "anchors": ["beamconv/instrument.py:ScanStrategy.bin_tod", "beamconv/instrument.py:MPIBase.reduce_array", "beamconv/instrument.py:ScanStrategy.solve_for_map"]}
{"id": "C06", "title": "Mission length parameters are resolved consistently or rejected", "statement": "Constructing a ScanStrategy from two of (duration, sample rate, number of samples) yields the third consistently (num_samples = floor(duration*rate)), rejects underdetermined input, non-positive rates and inconsistent triples with ValueError, and never produces a negative number of samples.", "quantifier": "every combination of given / missing values and every value", "why_tests_cant": "three optional real parameters, infinitely many combinations", "anchors": ["beamconv/instrument.py:ScanStrategy.__init__"]}
{"id": "C07", "title": "Mission chunks tile the mission", "statement": "partition_mission returns chunks that are contiguous, in time order, non-overlapping, start at sample 0 and end at the last sample of the mission; chunk i carries index i; all have the requested size except possibly the last, which is not empty and not larger.", "quantifier": "every mission length and every chunk size", "why_tests_cant": "off-by-one depends on divisibility; unbounded sizes", "anchors": ["beamconv/instrument.py:ScanStrategy.partition_mission"]}
{"id": "C08", "title": "Rotation sub-chunks tile the chunk", "statement": "Splitting a chunk for instrument rotation returns sub-chunks that tile it exactly and in order and carry its chunk index; no sub-chunk crosses an instant at which the instrument has to rotate, i.e. every interior boundary is a multiple of the rotation period counted from the first sample of the mission.", "quantifier": "every rotation period, every chunk and every history of previously split contiguous chunks", "why_tests_cant": "depends on the unbounded history of earlier chunks through the carried remainder", "anchors": ["beamconv/instrument.py:ScanStrategy.subpart_chunk"]}
{"id": "C09", "title": "Boresight angle depends on time only, not on chunking", "statement": "With a rotation period of n samples and angle list A, sample t of the mission is observed at boresight angle A[(t div n) mod len A], however the mission is cut in chunks.", "quantifier": "every period, angle list, mission length and every partition in chunks", "why_tests_cant": "state is carried between chunks; tests use one chunk size", "anchors": ["beamconv/instrument.py:ScanStrategy.subpart_chunk", "beamconv/instrument.py:ScanStrategy.rotate_instr", "beamconv/instrument.py:ScanStrategy.scan_instrument_mpi"]}
{"id": "C10", "title": "Elevation steps depend on time only, not on chunking", "statement": "With an elevation step period of n samples and step list E, sample t of the mission gets elevation offset E[(t div n) mod len E], however the mission is cut in chunks; no other sample is modified.", "quantifier": "every step period, step list and every sequence of chunk sizes", "why_tests_cant": "state (generator, remainder, last value) is carried over an unbounded sequence of chunks", "anchors": ["beamconv/instrument.py:ScanStrategy.step_array", "beamconv/instrument.py:ScanStrategy.set_el_steps"]}
{"id": "C11", "title": "Resetting the stepping restarts the same sequence", "statement": "After reset_el_steps (resp. reset_hwp_mod / reset_instr_rot) the sequence of offsets (angles) is identical to that of a freshly configured strategy, whatever was scanned before; hence all detector pairs of one pass over the focal plane see the same sequence.", "quantifier": "every history of chunks before the reset and every sequence of chunks after it", "why_tests_cant": "histories are unbounded", "anchors": ["beamconv/instrument.py:ScanStrategy.reset_el_steps", "beamconv/instrument.py:ScanStrategy.reset_instr_rot", "beamconv/instrument.py:ScanStrategy.reset_hwp_mod", "beamconv/instrument.py:ScanStrategy.step_array"]}
{"id": "C12", "title": "Stepped HWP angle depends on time only", "statement": "In stepped mode with step size n samples and angle list H, the HWP angle of sample t equals H[(t div n) mod len H] modulo 360 degrees, however the mission is cut in chunks.", "quantifier": "every step size, angle list, sequence of non-empty chunks", "why_tests_cant": "carried state over unbounded chunk sequences", "anchors": ["beamconv/instrument.py:ScanStrategy.rotate_hwp", "beamconv/instrument.py:ScanStrategy.step_array", "beamconv/instrument.py:ScanStrategy.set_hwp_mod"]}
{"id": "C13", "title": "Continuously rotating HWP angle depends on time only", "statement": "In continuous mode the HWP angle of mission sample t is start + 360*f*t/fsamp (mod 360), however the mission is cut in chunks.", "quantifier": "every rotation frequency, sample rate, start angle and chunk sequence", "why_tests_cant": "carried state over unbounded chunk sequences", "anchors": ["beamconv/instrument.py:ScanStrategy.rotate_hwp"]}
{"id": "C14", "title": "The angle generator cycles through its list forever", "statement": "The n-th value produced by the angle generator is angles[n mod len(angles)]; an empty list raises.", "quantifier": "every list and every n", "why_tests_cant": "infinite stream", "anchors": ["beamconv/tools.py:angle_gen"]}
{"id": "C15", "title": "Timestamps do not depend on chunking", "statement": "Concatenating the timestamps of the chunks of a mission gives ctime0 + t/fsamp for t = 0..nsamp-1, whatever the chunk size; l2_ctime, satellite_ctime and the generic scan agree.", "quantifier": "every mission length, chunk size and sample rate", "why_tests_cant": "all chunk sizes", "anchors": ["beamconv/instrument.py:ScanStrategy.implement_scan", "beamconv/instrument.py:ScanStrategy.l2_ctime", "beamconv/instrument.py:ScanStrategy.satellite_ctime"]}
{"id": "C16", "title": "Stored timelines contain every sample exactly once", "statement": "With save_tod, the timeline returned by data() for a chunk and detector is the concatenation of the timelines of its sub-chunks in time order: every sample is written exactly once and no index is out of range.", "quantifier": "every chunk, every rotation period / history, every detector", "why_tests_cant": "depends on tiling for all periods", "anchors": ["beamconv/instrument.py:ScanStrategy._chunk2idx", "beamconv/instrument.py:ScanStrategy._scan_detector", "beamconv/instrument.py:ScanStrategy.data", "beamconv/instrument.py:ScanStrategy.subpart_chunk"]}
{"id": "C17", "title": "Stored timelines of different detectors do not collide", "statement": "For any focal plane built with create_focal_plane / load_focal_plane / input_focal_plane / add_to_focal_plane, in any sequence, different detectors have different identifiers, so data() never returns another detector's timeline.", "quantifier": "every sequence of focal-plane operations", "why_tests_cant": "unbounded operation histories", "anchors": ["beamconv/instrument.py:Instrument.add_to_focal_plane", "beamconv/instrument.py:Instrument.create_focal_plane", "beamconv/instrument.py:Instrument.load_focal_plane", "beamconv/instrument.py:Instrument.input_focal_plane", "beamconv/instrument.py:Instrument.beams_idxs"]}
{"id": "C18", "title": "Truncation of harmonic coefficients keeps every mode", "statement": "trunc_alm(alm, lmax_new, mmax_old) returns an array in which mode (l,m) has exactly the value it had in the input, for every l <= lmax_new and m <= min(l, mmax_old), and nothing else; it raises ValueError when asked for more than is available; truncating twice equals truncating once to the smaller band limit.", "quantifier": "every band limit, every mmax and every coefficient array", "why_tests_cant": "all band limits; index arithmetic", "anchors": ["beamconv/tools.py:trunc_alm"]}
{"id": "C19", "title": "The harmonic coefficient layout is a bijection", "statement": "The array positions used for modes (l,m), 0<=m<=min(l,mmax), l<=lmax, are distinct and are exactly 0..size-1, with consecutive l adjacent for fixed m.", "quantifier": "every lmax and mmax <= lmax", "why_tests_cant": "all sizes", "anchors": ["beamconv/tools.py:trunc_alm", "beamconv/tools.py:shift_blm", "beamconv/tools.py:blm2bl"]}
{"id": "C20", "title": "Co-polar beam coefficients follow the Hivon relation", "statement": "unpol2pol returns spin -2 / +2 coefficients equal to the unpolarized beam coefficients at m-2 / m+2 (negative m through b(l,-m) = (-1)^m conj b(l,m)) for l >= 2 and zero for l < 2 or where m+2 > l.", "quantifier": "every band limit >= 1 and every coefficient array", "why_tests_cant": "all band limits; slice arithmetic", "anchors": ["beamconv/tools.py:unpol2pol", "beamconv/tools.py:get_copol_blm"]}
{"id": "C21", "title": "Shifting beam coefficients in m is exact", "statement": "shift_blm by k maps mode m of the +2 (-2) coefficients to m+k (m-k), with negative m obtained through the conjugation symmetry and modes without |m| <= l dropped; shift 0 is the identity; unequal sizes and shifts beyond the band limit are rejected; for even shifts, shifting back recovers every mode that stayed within |m| <= l.", "quantifier": "every band limit, shift and coefficient arrays", "why_tests_cant": "all band limits and shifts", "anchors": ["beamconv/tools.py:shift_blm"]}
{"id": "C22", "title": "Conversion between spin and E/B coefficients is lossless", "statement": "eb2spin followed by spin2eb (even spin), and the reverse, are the identity for every array; non-integer spin is rejected.", "quantifier": "every coefficient arrays and every even spin", "why_tests_cant": "all complex values", "anchors": ["beamconv/tools.py:spin2eb", "beamconv/tools.py:eb2spin"]}
{"id": "C23", "title": "Mueller matrices convert to the spin basis as a representation", "statement": "mueller2spin preserves products and the identity, is injective, and for a real Mueller matrix the resulting matrix is conjugation symmetric.", "quantifier": "every 4x4 (real) Mueller matrix", "why_tests_cant": "continuous domain", "anchors": ["beamconv/tools.py:mueller2spin"]}
{"id": "C24", "title": "IQUV <-> I,P,P*,V conversion is a lossless change of basis", "statement": "iquv2ippv and ippv2iquv are mutually inverse, and the converted matrix applied to the (I,Q+iU,Q-iU,V) vector of any Stokes vector gives the converted vector of the transformed Stokes vector.", "quantifier": "every 4x4 matrix and every Stokes vector", "why_tests_cant": "continuous domain", "anchors": ["beamconv/tools.py:iquv2ippv", "beamconv/tools.py:ippv2iquv"]}
{"id": "C25", "title": "An ideal HWP given as a Mueller matrix equals the built-in ideal HWP", "statement": "For an azimuthally symmetric co-polar beam, decomposing with Mueller matrix diag(1,1,-1,-1) gives for the 4-alpha component exactly the original beam coefficients and zero for the 2-alpha and 0-alpha polarized and the I to P leakage components.", "quantifier": "every band limit >= 4 (smaller ones must be rejected) and every symmetric beam", "why_tests_cant": "all beams", "anchors": ["beamconv/instrument.py:ScanStrategy.blmxhwp", "beamconv/tools.py:mueller2spin", "beamconv/tools.py:shift_blm", "beamconv/tools.py:unpol2pol"]}
{"id": "C26", "title": "Quaternion helpers implement the rotation group", "statement": "quat_left_mult is the Hamilton product: associative, with unit; quat_norm is multiplicative; quat_conj reverses products; quat_inv is a two-sided inverse of any non-zero quaternion; quat_conj_by preserves norm and scalar part and composes.", "quantifier": "every quaternion", "why_tests_cant": "continuous domain", "anchors": ["beamconv/tools.py:quat_left_mult", "beamconv/tools.py:quat_norm", "beamconv/tools.py:quat_conj", "beamconv/tools.py:quat_inv", "beamconv/tools.py:quat_conj_by"]}
{"id": "C27", "title": "Cross-talk mixes the two timelines symmetrically", "statement": "cross_talk turns (a, b) into (a + c*b, b + c*a) sample by sample, for any c; the operation commutes with swapping the detectors and is undone, up to the factor 1-c^2, by cross-talk with -c.", "quantifier": "every pair of equally long timelines and every c", "why_tests_cant": "continuous domain", "anchors": ["beamconv/tools.py:cross_talk", "beamconv/instrument.py:ScanStrategy.scan_instrument_mpi"]}
{"id": "C28", "title": "The filter window is a proper taper", "statement": "tukey_window(n) has n samples, is symmetric, vanishes at both ends, lies in [0,1] and is 1 in its central part.", "quantifier": "every n", "why_tests_cant": "all n", "anchors": ["beamconv/tools.py:tukey_window"]}
{"id": "C29", "title": "The HWP bandpass keeps only the requested band", "statement": "filter_ft_hwp sets every Fourier mode outside [center - h, center + h], h = floor(width/2), to zero and multiplies the modes inside by the taper, changing nothing else.", "quantifier": "every spectrum length, center and width", "why_tests_cant": "all index combinations incl. wrap-around", "anchors": ["beamconv/tools.py:filter_ft_hwp", "beamconv/tools.py:filter_tod_hwp"]}
{"id": "C30", "title": "Sawtooth and triangle scan profiles stay within the throw", "statement": "The azimuth profile used for scanning never leaves [-throw/2, throw/2] and is periodic with the scan period.", "quantifier": "every number of samples, scan speed and throw > 0", "why_tests_cant": "continuous domain", "anchors": ["beamconv/tools.py:sawtooth_wave", "beamconv/instrument.py:ScanStrategy.implement_scan"]}
{"id": "C31", "title": "RA/Dec to colatitude/longitude is the standard conversion", "statement": "radec2colatlong maps declination d in [-90,90] to colatitude 90-d degrees and right ascension to the equivalent longitude in [0, 360).", "quantifier": "every RA and every declination in range, end points included", "why_tests_cant": "continuous domain with boundary cases", "anchors": ["beamconv/tools.py:radec2colatlong"]}
{"id": "C32", "title": "Angle wrapping returns the equivalent angle in range", "statement": "wraparound_2pi / wraparound_npi return for every element the equivalent angle in [0, 2 pi) / [0, n pi) and accept arrays of any length.", "quantifier": "every array of angles", "why_tests_cant": "continuous domain", "anchors": ["beamconv/scanning.py:wraparound_2pi", "beamconv/scanning.py:wraparound_npi"]}
{"id": "C33", "title": "The L2 scan uses the correct Dublin Julian date", "statement": "ctime2bore evaluates the Sun position at the Dublin Julian date of the given unix time, i.e. (t - t_ref)/86400 days for the reference epoch 1899-12-31 12:00.", "quantifier": "every unix time", "why_tests_cant": "continuous domain", "anchors": ["beamconv/scanning.py:ctime2DJD", "beamconv/scanning.py:convert_Julian2Dublin", "beamconv/scanning.py:ctime2bore"]}
{"id": "C34", "title": "The L2 boresight is a unit vector at fixed opening angles", "statement": "The boresight vector of the L2 scan is a unit vector for every time, and makes a constant angle (the boresight opening angle) with the spin axis, which makes a constant angle (the antisun angle) with the antisun direction.", "quantifier": "every set of scan angles and every time", "why_tests_cant": "continuous domain", "anchors": ["beamconv/scanning.py:LB_rotmatrix_multi2", "beamconv/scanning.py:matrix2x2_multi_xy", "beamconv/scanning.py:matrix2x2_multi_xz"]}
{"id": "C35", "title": "Jones to Mueller conversion is a representation", "statement": "JonesToMueller is multiplicative, maps the identity to the identity, is insensitive to an overall phase, scales with |c|^2, and loses nothing by dropping the imaginary part.", "quantifier": "every pair of 2x2 complex Jones matrices", "why_tests_cant": "continuous domain", "anchors": ["beamconv/transfer_matrix.py:JonesToMueller"]}
{"id": "C36", "title": "Rotating an optical element is a similarity transformation", "statement": "Rotating a Jones or Mueller matrix by an angle leaves the identity unchanged, rotations compose additively, rotating back undoes it, and converting to Mueller commutes with rotation.", "quantifier": "every matrix and angle", "why_tests_cant": "continuous domain", "anchors": ["beamconv/transfer_matrix.py:JonesRotation", "beamconv/transfer_matrix.py:MuellerRotation"]}
{"id": "C37", "title": "The transfer matrix of a stack is the product of its layers", "statement": "Concatenating stacks multiplies their transfer matrices; a layer of zero thickness changes nothing; splitting a layer in two layers of the same material and orientation with the same total thickness changes nothing.", "quantifier": "every stack (any number of layers), frequency, incidence angle", "why_tests_cant": "unbounded number of layers; continuous parameters", "anchors": ["beamconv/transfer_matrix.py:transferMatrix", "beamconv/transfer_matrix.py:stackTransferMatrix", "beamconv/transfer_matrix.py:Stack"]}
{"id": "C38", "title": "Ghost bookkeeping is consistent", "statement": "In any sequence of operations, a beam's ghost count equals its number of ghosts, the ghosts' indices are their creation order, a ghost never has ghosts of its own, and a failed operation changes nothing.", "quantifier": "every sequence of create_ghost / property operations", "why_tests_cant": "unbounded histories", "anchors": ["beamconv/detector.py:Beam.create_ghost", "beamconv/detector.py:Beam.ghost", "beamconv/detector.py:Beam.ghost_count"]}
{"id": "C39", "title": "Killing a beam kills its ghosts", "statement": "Setting dead on a beam sets it on all its ghosts; ghosts can be killed individually without affecting the main beam; dead beams never contribute to a timeline.", "quantifier": "every beam and any number of ghosts", "why_tests_cant": "unbounded number of ghosts", "anchors": ["beamconv/detector.py:Beam.dead", "beamconv/instrument.py:ScanStrategy.scan", "beamconv/instrument.py:ScanStrategy._scan_detector"]}
{"id": "C40", "title": "Band limit, azimuthal limit and width of a beam are always valid", "statement": "For every constructed beam lmax is an integer >= 0, 0 <= mmax <= lmax, fwhm >= 0, and each one left unspecified is derived from the documented rule from the others; this stays true under later assignments.", "quantifier": "every combination of arguments and every sequence of assignments", "why_tests_cant": "infinite parameter space and histories", "anchors": ["beamconv/detector.py:Beam.__init__", "beamconv/detector.py:Beam.lmax", "beamconv/detector.py:Beam.mmax", "beamconv/detector.py:Beam.fwhm"]}
{"id": "C41", "title": "A ghost inherits unspecified settings from its parent", "statement": "create_ghost(**opts) yields a ghost whose every option is the one given in opts or else the parent's value.", "quantifier": "every parent and every set of options", "why_tests_cant": "all subsets of options", "anchors": ["beamconv/detector.py:Beam.create_ghost"]}
{"id": "C42", "title": "Beam amplitude sets the throughput", "statement": "The monopole coefficient of a beam equals its amplitude when normalization is requested, whatever the input coefficients and however the polarized part is obtained.", "quantifier": "every beam file content with non-zero monopole, every amplitude", "why_tests_cant": "continuous domain, several input formats", "anchors": ["beamconv/detector.py:Beam.load_blm", "beamconv/tools.py:scale_blm", "beamconv/tools.py:get_copol_blm", "beamconv/tools.py:get_pol_beam"]}
{"id": "C43", "title": "The detector count matches the focal plane", "statement": "After any sequence of create / add / remove operations on the focal plane, ndet equals the number of detectors on it, no slot pair is completely empty, and removed detectors are gone while all others keep their place.", "quantifier": "every sequence of focal-plane operations", "why_tests_cant": "unbounded histories", "anchors": ["beamconv/instrument.py:Instrument.add_to_focal_plane", "beamconv/instrument.py:Instrument.remove_from_focal_plane", "beamconv/instrument.py:Instrument.create_focal_plane"]}
{"id": "C44", "title": "Killing channels kills exactly the chosen fraction", "statement": "kill_channels(killfrac) marks exactly int(ndet*killfrac) distinct detectors (with their ghosts) dead, and touches no other, for every focal plane.", "quantifier": "every focal plane, fraction in (0,1] and every random draw", "why_tests_cant": "random draws and unbounded sizes", "anchors": ["beamconv/instrument.py:Instrument.kill_channels"]}
{"id": "C45", "title": "Global property changes reach every beam and ghost exactly once", "statement": "set_global_prop / add_to_prop apply the documented change to each selected beam and (if requested) to each of its ghosts, identically, leaving all other properties and unselected beams alone.", "quantifier": "every focal plane and property", "why_tests_cant": "unbounded focal planes", "anchors": ["beamconv/instrument.py:Instrument.set_global_prop", "beamconv/instrument.py:Instrument.add_to_prop", "beamconv/instrument.py:Instrument.set_global_prop_random"]}
{"id": "C46", "title": "A timeline is the sum of main beam and live ghosts", "statement": "The timeline of a detector is the sum of the contributions of the main beam (if alive) and all its live ghosts, independent of the order and of any earlier content.", "quantifier": "every number of ghosts and every dead/alive pattern and previous state", "why_tests_cant": "unbounded ghosts / histories", "anchors": ["beamconv/instrument.py:ScanStrategy._scan_detector", "beamconv/instrument.py:ScanStrategy.scan"]}
{"id": "C47", "title": "Position-angle modulation computes the documented sum", "statement": "The modulation adds to the timeline sum_s f_s(pix) exp(-i s psi), using the recursive phase update or direct exponentials interchangeably; with the reality option the s >= 0 half yields the full two-sided sum; negative spins with the reality option are rejected.", "quantifier": "every list of spins, maps, pixel lists and angles", "why_tests_cant": "unbounded spin lists", "anchors": ["beamconv/instrument.py:ScanStrategy._scan_modulate_pa"]}
{"id": "C48", "title": "Timelines are linear in the sky", "statement": "Scanning the sum (or a multiple) of two skies gives the sum (multiple) of the timelines.", "quantifier": "every pair of skies, beams, pointing and HWP settings", "why_tests_cant": "continuous domain", "anchors": ["beamconv/instrument.py:ScanStrategy.scan", "beamconv/instrument.py:ScanStrategy._init_spinmaps", "beamconv/instrument.py:ScanStrategy._spinmaps_real", "beamconv/instrument.py:ScanStrategy._spinmaps_complex"]}
{"id": "C49", "title": "Patch selection terminates and respects the elevation limit", "statement": "The elevation check of the generic scan terminates for every list of patches; every check interval observes the first patch in order of preference whose elevation is at least el_min, and falls back to el_min if none is.", "quantifier": "every number of patches, check intervals and elevations", "why_tests_cant": "termination and all inputs", "anchors": ["beamconv/instrument.py:ScanStrategy.implement_scan"]}
{"id": "C50", "title": "Azimuth follows the selected patch in every sample", "statement": "Sample i of a chunk points at the azimuth centre determined for check interval i div check_len plus the scan profile, for every throw including zero (staring).", "quantifier": "every chunk size, check interval and throw", "why_tests_cant": "all divisibility cases", "anchors": ["beamconv/instrument.py:ScanStrategy.implement_scan", "beamconv/instrument.py:ScanStrategy.strictly_az"]}
{"id": "C51", "title": "Samples below the elevation limit are flagged when asked for", "statement": "With cut_el_min, every sample whose patch is below el_min is flagged and therefore excluded from the maps.", "quantifier": "every elevation sequence", "why_tests_cant": "all inputs", "anchors": ["beamconv/instrument.py:ScanStrategy.implement_scan", "beamconv/instrument.py:ScanStrategy.bin_tod"]}
{"id": "C52", "title": "Schedule chunks tile the schedule", "statement": "partition_schedule_file produces chunks that are contiguous from sample 0, whose index equals their position (so each chunk is paired with its own scan parameters), and that cover min(nsamp, schedule length) samples.", "quantifier": "every schedule and chunk size", "why_tests_cant": "unbounded schedules, divisibility", "anchors": ["beamconv/instrument.py:ScanStrategy.partition_schedule_file", "beamconv/instrument.py:ScanStrategy.schedule_ctime"]}
{"id": "C53", "title": "Schedule scans sweep between the scheduled azimuths", "statement": "The azimuth of a constant-elevation scan sweeps back and forth over the scheduled interval, also when it contains north (az0 > az1), and the profile covers every sample of the chunk.", "quantifier": "every pair of azimuths, speed, length", "why_tests_cant": "continuous domain", "anchors": ["beamconv/instrument.py:ScanStrategy.schedule_scan"]}
{"id": "C54", "title": "Satellite pointing is continuous across chunks", "statement": "The anti-sun longitude of the satellite scan at the first sample of a chunk continues from the last sample of the previous one.", "quantifier": "every chunk sequence", "why_tests_cant": "carried state", "anchors": ["beamconv/instrument.py:ScanStrategy.satellite_scan"]}
{"id": "C55", "title": "Stored pointing equals recomputed pointing", "statement": "With create_memmap, every detector pair is scanned with the same boresight (and ground) pointing it would have without.", "quantifier": "every number of pairs and chunks", "why_tests_cant": "unbounded passes", "anchors": ["beamconv/instrument.py:ScanStrategy.implement_scan", "beamconv/instrument.py:ScanStrategy.scan_instrument_mpi"]}
{"id": "C56", "title": "Invalid harmonic coefficients are always detected", "statement": "Initializing spinmaps raises if any sky or beam coefficient array contains a NaN or infinity.", "quantifier": "every position of the bad value", "why_tests_cant": "all positions", "anchors": ["beamconv/instrument.py:ScanStrategy._init_spinmaps"]}
{"id": "C57", "title": "Ghost spinmaps exist for every ghost", "statement": "After initializing spinmaps of a beam, each ghost's signal maps can be looked up and belong to that ghost's beam coefficients, also when ghosts share coefficients.", "quantifier": "every number of ghosts and sharing pattern", "why_tests_cant": "unbounded ghosts", "anchors": ["beamconv/instrument.py:ScanStrategy.init_spinmaps", "beamconv/instrument.py:ScanStrategy.init_detpair", "beamconv/detector.py:Beam.reuse_blm"]}
{"id": "C58", "title": "Explicit zero settings are honoured", "statement": "A latitude, longitude, start time or HWP angle given explicitly is used, including the value zero.", "quantifier": "every value", "why_tests_cant": "single special value among a continuum", "anchors": ["beamconv/instrument.py:Instrument.__init__", "beamconv/instrument.py:ScanStrategy.ctime0", "beamconv/instrument.py:ScanStrategy.rotate_hwp"]}
{"id": "C59", "title": "Randomly perturbed ghosts are perturbed independently", "statement": "create_reflected_ghosts / create_crosstalk_ghosts with a random amplitude give each ghost base amplitude plus its own draw.", "quantifier": "every focal plane and every sequence of draws", "why_tests_cant": "random draws, unbounded focal planes", "anchors": ["beamconv/instrument.py:Instrument.create_reflected_ghosts", "beamconv/instrument.py:Instrument.create_crosstalk_ghosts"]}
{"id": "C60", "title": "Symmetric beam profile extraction", "statement": "blm2bl returns for fixed m the coefficients b(l,m), l=0..lmax with zeros below m (full) or the l >= m part; negative m is rejected and m > lmax yields no coefficient (zeros when full).", "quantifier": "every band limit and m", "why_tests_cant": "all sizes", "anchors": ["beamconv/tools.py:blm2bl"]}
{"id": "C61", "title": "The L2 scan follows the requested opening angles and rates", "statement": "l2_scan produces the boresight motion described by its arguments alpha, beta, alpha_period, beta_period (precession angle, spin angle and their periods); changing an argument changes the boresight accordingly, and with default arguments the defaults documented in the docstring are used.", "quantifier": "every value of the angles and periods and every time", "why_tests_cant": "a test at default arguments cannot notice that other values are ignored; the claim is over all argument values", "anchors": ["beamconv/instrument.py: ScanStrategy.l2_scan", "beamconv/scanning.py: ctime2bore, LB_rotmatrix_multi2"]}
{"id": "C62", "title": "The L2 position angle is the oriented angle of the scan direction", "statement": "For the L2 scan the returned position angle is the angle, measured at the boresight, between the local meridian and the direction in which the boresight moves, with the sign given by the direction of motion in longitude.", "quantifier": "every time, opening angles and rates, away from the poles and from instants where the boresight is at rest", "why_tests_cant": "the angle is a continuous function of time; a test samples a few instants", "anchors": ["beamconv/scanning.py: LB_rotmatrix_multi2, deriv_theta, deriv_phi, cosangle"]}
{"id": "C63", "title": "A stack of zero-thickness layers is transparent", "statement": "A non-empty stack whose layers all have zero thickness, between equal media, transmits every polarisation unchanged (Mueller matrix the identity) and reflects nothing, whatever the materials, orientations, frequency, incidence angle and rotation.", "quantifier": "every such stack, frequency, incidence angle below grazing and rotation", "why_tests_cant": "unbounded numbers of layers and real-valued angles and indices", "anchors": ["beamconv/transfer_matrix.py: Mueller, TranToJones, stackTransferMatrix, transferMatrix"]}
{"id": "C64", "title": "Predefined HWP models are usable and unknown names are rejected", "statement": "Every model name accepted by HWP.choose_HWP_model builds a stack with as many materials, thicknesses and angles as layers and physically meaningful parameters (indices above 1, no gain); its transfer matrix exists at every frequency and incidence angle, and at normal incidence compute_mueller returns a Mueller matrix that never brightens polarised light. Any other name raises ValueError. stack_builder returns the stack of its layers, or raises ValueError if the lists differ in length.", "quantifier": "all model names (strings), all frequencies and incidence angles", "why_tests_cant": "Tests pick one model and one frequency; the claim is about every name and the whole frequency range.", "anchors": ["beamconv/detector.py:HWP.choose_HWP_model", "beamconv/detector.py:HWP.stack_builder", "beamconv/detector.py:HWP.compute_mueller"]}
{"id": "C65", "title": "HWP stacks at normal incidence conserve or lose energy", "statement": "For every passive stack (no layer with gain) at normal incidence, the transmitted plus the reflected power never exceed the incident power for any incident polarisation, and they are equal if no layer absorbs.", "quantifier": "all stacks (any number of layers, birefringent or not, any thickness and rotation), all frequencies, all polarisation states", "why_tests_cant": "Unbounded number of layers with real-valued parameters.", "anchors": ["beamconv/transfer_matrix.py:TransferMatrix", "beamconv/transfer_matrix.py:TranJones", "beamconv/transfer_matrix.py:RefJones"]}
{"id": "C66", "title": "Rotating an HWP stack rotates its Jones matrix", "statement": "At normal incidence, evaluating the transmission Jones matrix of a stack with the rotation argument set to r is the same as rotating the Jones matrix of the unrotated stack by r with JonesRotation.", "quantifier": "all stacks, frequencies and rotation angles", "why_tests_cant": "Real-valued parameters and stacks of any length.", "anchors": ["beamconv/transfer_matrix.py:TransferMatrix", "beamconv/transfer_matrix.py:JonesRotation"]}
{"id": "C67", "title": "Repeating a scan reproduces it", "statement": "Calling scan_instrument_mpi twice with the same arguments stores the same timelines, pointing and HWP angles both times.", "quantifier": "all chunkings, rotation and HWP settings, detector pairs and previously stored data", "why_tests_cant": "Depends on the complete history of the instrument state; only some settings expose leftover state.", "anchors": ["beamconv/instrument.py:ScanStrategy.scan_instrument_mpi", "beamconv/instrument.py:ScanStrategy.reset_instr_rot", "beamconv/instrument.py:ScanStrategy.reset_hwp_mod"]}
{"id": "C68", "title": "Pointing does not depend on the partition into chunks", "statement": "The boresight pointing at a given sample of the mission is the same for every way of cutting the mission into chunks.", "quantifier": "all partitions of the mission, scan strategies (generic, strictly_az) and options", "why_tests_cant": "The number of partitions is unbounded and only partitions that do not line up with the scan period show differences.", "anchors": ["beamconv/instrument.py:ScanStrategy.implement_scan", "beamconv/instrument.py:ScanStrategy.strictly_az", "beamconv/instrument.py:ScanStrategy.partition_mission"]}
{"id": "C69", "title": "create_focal_plane lays out a square grid of detector pairs", "statement": "A successful call of create_focal_plane(nrow, ncol, fov, no_pairs, ab_diff, combine, **kwargs) appends nrow*ncol new pairs to the focal plane (or replaces it with combine=False) without changing any existing detector. The pair of column c and row e sits at azimuth -fov/2 + c*fov/(ncol-1) and elevation -fov/2 + e*fov/(nrow-1) (at -fov/2 when there is a single column or row); both detectors of a pair share the offset, B's polarization angle is A's plus ab_diff, A is of type A and B of type B, B is dead with no_pairs, every other option is handed to all detectors unchanged, and no two detectors get the same name.", "quantifier": "all histories of focal-plane operations, all numbers of rows and columns, all fields of view, all keyword options", "why_tests_cant": "the grid has unbounded size, names are fixed-width only up to 999 and the offsets depend on the number of rows, so a test checks only a few sizes", "anchors": ["beamconv/instrument.py: Instrument.create_focal_plane", "beamconv/detector.py: Beam.__init__"]}
{"id": "C70", "title": "Ground pickup adds to the sky signal", "statement": "When a ground signal is given, the timeline of a detector is the sky signal of the main beam and its live ghosts plus the ground signal as seen by the main beam, and saving timelines and pointing works as without ground.", "quantifier": "every set of beam, ghosts, ground and sky maps and every pointing", "why_tests_cant": "unbounded ghosts, continuous domain; the combinations ground+ghosts and ground+save_point are not exercised", "anchors": ["beamconv/instrument.py:ScanStrategy._scan_detector", "beamconv/instrument.py:ScanStrategy.scan"]}
{"id": "C71", "title": "A detector measures the convolution of the sky with its beam", "statement": "Without a HWP Mueller matrix, the value in every sample of a detector's timeline is the harmonic-space convolution of the I, Q, U (and V, when given) sky with the detector's beam, turned by its polarization angle and twice the HWP angle, evaluated at the sample's pixel (or interpolated between pixels) and position angle, plus the same for every live ghost. It uses exactly the azimuthal numbers |s| <= min(beam mmax, max_spin) (or 0 for I and 2 for polarization with a symmetric beam) and the modes up to the lower of the two band limits.", "quantifier": "every sky, every beam with ghosts, every band limit, max_spin, pointing, polarization angle and HWP angle", "why_tests_cant": "continuous domain; tests compare a few pixels for Gaussian beams, in which most azimuthal numbers vanish", "anchors": ["beamconv/instrument.py:ScanStrategy.init_spinmaps", "beamconv/instrument.py:ScanStrategy._init_spinmaps", "beamconv/instrument.py:ScanStrategy._spinmaps_real", "beamconv/instrument.py:ScanStrategy._spinmaps_complex", "beamconv/instrument.py:ScanStrategy.scan"]}
{"id": "C72", "title": "A plate with identity Mueller matrix does nothing", "statement": "Giving every beam of a detector the 4x4 identity as hwp_mueller produces, at every HWP angle and for every polarization angle, the same timeline as no Mueller matrix and a HWP at angle 0.", "quantifier": "all skies, beams, pointings, HWP angle histories, polarization angles, ghosts", "why_tests_cant": "The Mueller path uses five families of spin maps with their own phases; agreement must hold for all combinations of sky, beam and angles, tests only compare a few.", "anchors": ["beamconv/instrument.py:ScanStrategy.scan", "beamconv/instrument.py:ScanStrategy._scan_modulate_pa", "beamconv/instrument.py:ScanStrategy._init_spinmaps", "beamconv/instrument.py:ScanStrategy.blmxhwp"]}
{"id": "C73", "title": "A plate acts as beam times rotated Mueller matrix", "statement": "With hwp_mueller M the timeline is the convolution of the sky with the beam whose row of Stokes parameters is multiplied by R(-alpha) M R(alpha), alpha the HWP angle of the sample, summed over the detector and its live ghosts.", "quantifier": "all real 4x4 matrices M, skies, beams, pointings, HWP angle histories", "why_tests_cant": "The identity is between functions of the sky, beam, angle and matrix; samples of matrices (diagonal ones in particular) hide wrong off-diagonal elements.", "anchors": ["beamconv/instrument.py:ScanStrategy.scan", "beamconv/instrument.py:ScanStrategy._scan_modulate_pa", "beamconv/instrument.py:ScanStrategy._init_spinmaps", "beamconv/instrument.py:ScanStrategy.blmxhwp"]}
{"id": "C74", "title": "The symmetric flag is only an optimisation", "statement": "For beams that are symmetric around their axis, setting symmetric to True gives the same timeline as False, with or without Mueller matrix.", "quantifier": "all skies, axisymmetric beams, pointings, HWP states, maximum spins of at least 2", "why_tests_cant": "It must hold for every sky and every axisymmetric beam, not only for the Gaussian in the tests.", "anchors": ["beamconv/instrument.py:ScanStrategy.scan", "beamconv/instrument.py:ScanStrategy._scan_modulate_pa", "beamconv/instrument.py:ScanStrategy._init_spinmaps", "beamconv/instrument.py:ScanStrategy.blmxhwp"]}
{"id": "C75", "title": "Ideal HWP Mueller matrix equals no Mueller matrix", "statement": "For axisymmetric beams with real polarization coefficients and no V sky, hwp_mueller = diag(1,1,-1,-1) gives at every HWP and polarization angle the timeline obtained without hwp_mueller.", "quantifier": "all skies without V, axisymmetric real beams, pointings, HWP angles, polarization angles", "why_tests_cant": "Tests compare one sky and one beam; the equality of two code paths must hold for all.", "anchors": ["beamconv/instrument.py:ScanStrategy.scan", "beamconv/instrument.py:ScanStrategy._scan_modulate_pa", "beamconv/instrument.py:ScanStrategy._init_spinmaps", "beamconv/instrument.py:ScanStrategy.blmxhwp"]}
{"id": "C76", "title": "A Gaussian beam has the analytic coefficients of a Gaussian", "statement": "For every FWHM, amplitude and band limit lmax of at least 1, the coefficients of a Gaussian Beam are A exp(-l(l+1) sigma^2/2) at azimuthal number 0 for the unpolarized response, A exp(-(l(l+1)-4) sigma^2/2) at azimuthal number 2 for spin -2, and zero everywhere else, with sigma = FWHM / sqrt(8 ln 2).", "quantifier": "all FWHM, amplitudes, lmax >= 1", "why_tests_cant": "A test compares a few lmax and widths; the claim is about all of them, and about every position of the array.", "anchors": ["beamconv/detector.py:gen_gaussian_blm", "beamconv/tools.py:gauss_blm", "beamconv/tools.py:get_copol_blm"]}
{"id": "C77", "title": "cross_pol=False uses the co-polar approximation", "statement": "With cross_pol=False the polarized response of a beam read from a file is the co-polar one derived from the unpolarized row, whatever polarized rows the file contains.", "quantifier": "all files, band limits, flags", "why_tests_cant": "The number of rows and their content vary without bound; a test uses one file.", "anchors": ["beamconv/detector.py:load_blm"]}
{"id": "C78", "title": "Functions that derive beam coefficients leave their arguments unchanged", "statement": "scale_blm, get_copol_blm and get_pol_beam return new coefficients and leave the arrays of the caller unchanged, so that a second call with the same array gives the same result.", "quantifier": "all arrays and flags", "why_tests_cant": "Tests look at results of single calls with fresh arrays; the claim is about all arrays and histories of calls.", "anchors": ["beamconv/tools.py:scale_blm", "beamconv/tools.py:get_copol_blm", "beamconv/tools.py:get_pol_beam"]}
{"id": "C79", "title": "get_pol_beam combines Q and U beams to spin -2 and +2", "statement": "get_pol_beam returns the coefficients of Q + iU and Q - iU at azimuthal numbers shifted by -2 and +2, consistent with a real measurement, and the relative scale of the Q and U beams is kept for all flags.", "quantifier": "all Q and U beams, band limits and flags", "why_tests_cant": "Infinite domain of coefficient arrays and band limits.", "anchors": ["beamconv/tools.py:get_pol_beam", "beamconv/tools.py:unpol2pol"]}
{"id": "C80", "title": "Beam coefficients are those of the file", "statement": "For beams read from .npy or .fits files with polarized rows, each coefficient (l, m) of each row of the beam is that of the file, times sqrt(4 pi/(2l+1)) if deconv_q, divided by the monopole of the unpolarized row if normalize, times the amplitude; coefficients beyond the mmax of the file are zero and mmax of the beam is reduced to it. Files with only an unpolarized row get the co-polar polarized response.", "quantifier": "all files, band limits, flags, amplitudes", "why_tests_cant": "Depends on every coefficient, band limit and flag.", "anchors": ["beamconv/detector.py:load_blm", "beamconv/detector.py:blm", "beamconv/tools.py:scale_blm"]}
{"id": "C81", "title": "File names without extension", "statement": "A file name without extension stands for the .npy file of this name, or, if there is none, for the .fits file.", "quantifier": "all names and directory contents", "why_tests_cant": "Quantifies over all directory contents.", "anchors": ["beamconv/detector.py:load_blm"]}
{"id": "C82", "title": "Azimuth of a scheduled scan does not depend on chunks", "statement": "The azimuth of each sample of a scheduled scan is a function of its position in the scan, whatever the chunk size.", "quantifier": "all schedules, chunk sizes, sample rates and scan speeds", "why_tests_cant": "Quantifies over all partitions and real-valued parameters.", "anchors": ["beamconv/instrument.py:ScanStrategy.schedule_scan", "beamconv/instrument.py:ScanStrategy.partition_schedule_file"]}
{"id": "C83", "title": "Every line of a schedule file is a scan", "statement": "parse_schedule_file makes one scan of each line: start and end (MJD converted to unix time), azimuth limits, elevation.", "quantifier": "all schedule files", "why_tests_cant": "Infinite domain of files.", "anchors": ["beamconv/instrument.py:ScanStrategy.parse_schedule_file"]}
{"id": "C84", "title": "The spin of the satellite scan goes on over chunks", "statement": "The spin azimuth of the satellite scan at a sample is that of an uninterrupted rotation since the start of the mission.", "quantifier": "all chunk sequences, sample rates, periods", "why_tests_cant": "Depends on the whole partition and real-valued periods.", "anchors": ["beamconv/instrument.py:ScanStrategy.satellite_scan"]}
{"id": "C85", "title": "Pointing of the satellite scan is the same for all detectors", "statement": "All passes over the mission (one for each pair of detectors of a rank) see the same boresight pointing.", "quantifier": "all chunk sequences, numbers of passes", "why_tests_cant": "Depends on carried state over arbitrary histories.", "anchors": ["beamconv/instrument.py:ScanStrategy.satellite_scan", "beamconv/instrument.py:ScanStrategy.scan_instrument_mpi"]}
{"id": "C86", "title": "Every unflagged sample enters the maps exactly once", "statement": "After any sequence of bin_tod calls the accumulated maps (vec, proj) hold, pixel by pixel, the sum over exactly the samples that are not flagged, each counted once; the order of the calls does not matter and cutting a subchunk into two gives the same maps.", "quantifier": "all sequences of calls, subchunks, pointing, timelines, flags, HWP angles, nside", "why_tests_cant": "Sums over arbitrary histories of calls with arbitrary cuts.", "anchors": ["beamconv/instrument.py:ScanStrategy.bin_tod", "beamconv/instrument.py:ScanStrategy.allocate_maps"]}
{"id": "C87", "title": "Map-making recovers the beam-smoothed sky exactly", "statement": "Scanning a sky with detectors that share a symmetric beam and binning the timelines, solve_for_map returns, in each pixel seen under three or more polarization angles, exactly I, Q, U of the sky smoothed by the beam; an error polang_error and an HWP phase varphi rotate Q+iU by twice polang_error + 2 varphi and change nothing else; unseen pixels are filled with the fill value.", "quantifier": "all skies, symmetric beams, detectors, boresight and HWP histories, subchunk sequences, flags, pixels", "why_tests_cant": "An end-to-end identity over arbitrary skies and scans; tests sample a few scans at finite tolerance.", "anchors": ["beamconv/instrument.py:ScanStrategy.scan", "beamconv/instrument.py:ScanStrategy.bin_tod", "beamconv/instrument.py:ScanStrategy.solve_for_map", "beamconv/instrument.py:ScanStrategy.init_spinmaps"]}
{"id": "C88", "title": "A pixel can be solved exactly when seen under three polarization angles", "statement": "The first row of proj is the number of hits, and the 3x3 matrix of a pixel is invertible if and only if the pixel was observed under three different polarization angles (mod 180 deg).", "quantifier": "all sets of observations, all pixels", "why_tests_cant": "An equivalence over arbitrary multisets of observations.", "anchors": ["beamconv/instrument.py:ScanStrategy.bin_tod", "beamconv/instrument.py:ScanStrategy.solve_for_map"]}
{"id": "C89", "title": "preview_pointing gives the hits and matrices of the real scan", "statement": "scan_instrument_mpi with preview_pointing leaves the same proj maps as the real scan and zero vec maps (without ground).", "quantifier": "all sequences of live detectors with ghosts and subchunks", "why_tests_cant": "Equality of two runs over arbitrary histories.", "anchors": ["beamconv/instrument.py:ScanStrategy.scan", "beamconv/instrument.py:ScanStrategy._scan_detector", "beamconv/instrument.py:ScanStrategy.scan_instrument_mpi"]}
{"id": "C90", "title": "Flagged samples do not contribute", "statement": "The values of flagged samples never influence the maps; with all samples flagged bin_tod changes nothing; flag=False ignores the flags; an explicit flag array is used in place of the attribute.", "quantifier": "all timelines, flags, subchunks, states", "why_tests_cant": "Non-interference over all pairs of timelines.", "anchors": ["beamconv/instrument.py:ScanStrategy.bin_tod"]}
{"id": "C91", "title": "The 4f filter keeps a band around four times the HWP frequency", "statement": "filter_tod_hwp multiplies each Fourier mode of the timeline by a fixed real gain in [0,1] that depends only on the number of samples, the sample rate and the HWP frequency: zero away from 4f by more than the HWP frequency, one near 4f; it is linear, removes the mean, keeps a 4f sinusoid unchanged and removes sinusoids outside the band.", "quantifier": "all timelines and lengths, sample rates, HWP frequencies with at least half a revolution in the timeline, amplitudes, phases", "why_tests_cant": "Spectral identity for every length and every timeline.", "anchors": ["beamconv/tools.py:filter_tod_hwp", "beamconv/tools.py:filter_ft_hwp", "beamconv/tools.py:tukey_window"]}
{"id": "C92", "title": "The high-pass filter is a Butterworth filter", "statement": "With set_filter_dict(w_c, m) each mode is multiplied by 1/sqrt(1+(w_c/f)^(2m)) and the mean is removed, for every cutoff and order; without settings only the mean is removed.", "quantifier": "all timelines, cutoffs, orders, sample rates", "why_tests_cant": "Spectral identity for every length and every timeline.", "anchors": ["beamconv/tools.py:filter_tod_highpass", "beamconv/instrument.py:ScanStrategy.set_filter_dict", "beamconv/instrument.py:ScanStrategy.bin_tod"]}
{"id": "C93", "title": "Filters act on the timeline before it is binned", "statement": "bin_tod with filters bins the timeline whose modes are multiplied by the product of the gains; the maps are blind to constant offsets; hits and matrices are not affected by filters; filter_4fhwp is refused unless the HWP rotates continuously.", "quantifier": "all timelines, pointing, flags, maps, filter settings", "why_tests_cant": "Relations between runs over all inputs.", "anchors": ["beamconv/instrument.py:ScanStrategy.bin_tod"]}
{"id": "C94", "title": "Scanning sees the true detector angle, nominal plus error", "statement": "After any history of creating beams and ghosts, assigning attributes, reading, copying and deleting coefficients, polang_truth of every beam is its current polang plus its current polang_error, get_offsets returns azimuth, elevation and that sum in this order, only assignments to the two angles of that very beam change it, and new beams and ghosts start with the angles given (or 0, or the parent's).", "quantifier": "all histories of operations on beams with numeric pointing, all beams and ghosts, all angle values", "why_tests_cant": "The angle used for scanning is recomputed from two attributes of objects that share state through ghosts and copied coefficients; tests set one angle once.", "anchors": ["beamconv/detector.py: Beam.polang_truth", "beamconv/detector.py: Beam.get_offsets", "beamconv/detector.py: Beam.create_ghost"]}
{"id": "C95", "title": "Beam coefficients are made once and live until deleted", "statement": "The coefficients of a beam are made at the first access from the attributes of that moment and then stay the same for any sequence of further operations that does not assign, copy over or delete them, even if width, band limits or beam type change; delete_blm removes exactly those of the beam and, if asked, of its ghosts, after which they are made anew; reuse_blm leaves the beam with exactly the partner's. (Violated on ghosts: delete_blm raises AttributeError.)", "quantifier": "all histories of operations (including failing ones), all beams, all loaders", "why_tests_cant": "Staleness and sharing of cached coefficients depends on the whole history of accesses and changes.", "anchors": ["beamconv/detector.py: Beam.blm", "beamconv/detector.py: Beam.delete_blm", "beamconv/detector.py: Beam.reuse_blm"]}
{"id": "C96", "title": "A whole scan bins every sample of every live detector once", "statement": "scan_instrument_mpi followed by the reduction over ranks gives maps that hold exactly one observation per live detector and unflagged sample of the mission, in the direction, under the position angle and HWP angle, and with the signal (main beam, ghosts, cross-talk) of that sample. The maps do not depend on the number of ranks or on how the mission is cut in chunks, and the total number of hits is live detectors times unflagged samples.", "quantifier": "every list of detector pairs (dead, missing, with ghosts), number of ranks, partition in chunks, boresight rotation schedule, fixed, stepping or turning HWP, cross-talk, pointing", "why_tests_cant": "tests run one rank, one pair and one or two chunk sizes; the claim is about all partitions, ranks and schedules", "anchors": ["beamconv/instrument.py: ScanStrategy.scan_instrument_mpi, init_detpair, subpart_chunk, rotate_hwp, _scan_detector, bin_tod, solve_for_map, reduce_array"]}
{"id": "C97", "title": "preview_pointing predicts hits and angles of the real scan", "statement": "scan_instrument_mpi with preview_pointing=True gives the same hits and angle products (proj) as the scan with the same arguments without it, and a zero signal (vec).", "quantifier": "every list of detector pairs, number of ranks, chunks, rotation, HWP mode and cross-talk", "why_tests_cant": "tests compare one strategy; the claim is for all of them", "anchors": ["beamconv/instrument.py: ScanStrategy.scan_instrument_mpi, _scan_detector, bin_tod"]}
{"id": "C98", "title": "Scanning and map-making together recover the sky", "statement": "If all detectors share a symmetric beam, have no ghosts and no non-ideal HWP, then after a whole scan solve_for_map returns, in each pixel seen under at least three angles, exactly the sky seen through the beam, with the polarization rotated by 2 (err + 2 varphi) for detector angles wrong by err; other pixels that were never hit get the fill value.", "quantifier": "every sky, symmetric beam, set of pairs, number of ranks, chunks, boresight rotation, fixed, stepping or continuously turning HWP and pointing", "why_tests_cant": "tests check one noiseless map to float precision", "anchors": ["beamconv/instrument.py: ScanStrategy.scan_instrument_mpi, init_spinmaps, scan, bin_tod, solve_for_map"]}
{"id": "C99", "title": "Scans can be repeated, and every pair that can be described can be scanned", "statement": "Calling scan_instrument_mpi a second time on the same strategy gives the same data as the first time; the second detector of a pair is scanned with its own beam; a pair may lack its first detector; a scan with a ground template leaves no trace in later scans.", "quantifier": "every strategy and history of scans", "why_tests_cant": "needs histories of several scans on one object, with rotation and ground templates", "anchors": ["beamconv/instrument.py: ScanStrategy.scan_instrument_mpi, init_detpair, reset_instr_rot, reset_hwp_mod, reset_el_steps"]}
{"id": "C100", "title": "Detectors contribute independently", "statement": "The maps of a whole scan of a focal plane are the sum of the maps of its parts scanned on their own; the order of the pairs does not matter; pairs without live detectors have no effect; killing one detector of a pair removes exactly its own contribution (without cross-talk).", "quantifier": "every focal plane, split, order, number of ranks for each scan, chunks, boresight and HWP rotation, and pointing", "why_tests_cant": "compares whole runs on all focal planes and all ways to split or order them", "anchors": ["beamconv/instrument.py: ScanStrategy.scan_instrument_mpi, Instrument.kill_channels, MPIBase.reduce_array"]}
{"id": "C101", "title": "Maps are linear in the sky", "statement": "For a linear combination of two skies the binned data of a whole scan are the same linear combination, and the hits and projection matrices do not depend on the sky; solved maps are linear in each pixel with a regular matrix, and unobserved pixels are filled alike.", "quantifier": "every pair of skies, coefficient, focal plane (asymmetric beams, ghosts, HWP Mueller matrices, cross-talk), chunks, motion and number of ranks", "why_tests_cant": "a relation between three runs, for all skies and configurations", "anchors": ["beamconv/instrument.py: ScanStrategy.scan_instrument_mpi, init_spinmaps, scan, bin_tod, solve_for_map"]}
{"id": "C102", "title": "The returned pointing is that of the main beam", "statement": "Whenever scanning a detector succeeds, the pixels and position angles returned or saved are those of its main beam, one per sample of the subchunk, at the resolution of its spin maps and turned with the instrument, whatever its ghosts; position angles are 180 degrees minus those of qpoint, the HWP angle is in degrees (0 without HWP), and the timeline returned is the one kept in the object.", "quantifier": "every detector, list of ghosts, earlier state, subchunk, and both interpolation modes", "why_tests_cant": "ranges over all ghosts, states and pointing", "anchors": ["beamconv/instrument.py: ScanStrategy.scan, _scan_detector"]}
{"id": "C103", "title": "Inconsistent spin maps are refused", "statement": "A scan that succeeds had a live beam and, for that beam (its ghost, the ground), spin maps with as many maps as spins in each entry and one common nside; inconsistent spin maps raise ValueError, and missing ones raise an exception, before the timeline is touched.", "quantifier": "every dictionary of spin maps, beam and subchunk", "why_tests_cant": "needs all malformed dictionaries, including those that differ only in a later entry", "anchors": ["beamconv/instrument.py: ScanStrategy.scan"]}
{"id": "C104", "title": "Mueller matrices averaged over a band", "statement": "BandAveragedMueller returns the average of the Mueller matrices of the stack over the band, weighted by source spectrum times detector response (linear interpolation of files with rows in any order); it does not depend on the normalisation of either, lies between the extremes of the sampled matrices and never creates energy for passive stacks at normal incidence. Files that do not cover the sampled frequencies are refused.", "quantifier": "every stack, spectrum and passband file, band, number of frequencies, incidence, rotation and pair of media", "why_tests_cant": "ranges over all real-valued spectra, bands and stacks; the normalisation and energy statements compare infinitely many inputs", "anchors": ["beamconv/transfer_matrix.py: BandAveragedMueller"]}
{"id": "C105", "title": "Stored data of a whole scan", "statement": "After scan_instrument_mpi with save_tod / save_point, data() returns for every live detector and every chunk the complete record, sample by sample: what the detector recorded including cross-talk, its pixel numbers and position angles, and the plate angles; what was not asked for is not there, data of other detectors stay, and storing changes neither maps nor instrument. Storing in a preview, or scanning without alm, is refused. Combining save_point with ground_alm never succeeds (a violation).", "quantifier": "every list of detector pairs with distinct indices, number of ranks, partition in chunks, instrument and plate rotation, cross-talk and earlier content of the store", "why_tests_cant": "ranges over all missions, ranks and detector sets; a misplaced slice shows only for particular combinations of chunk and rotation period", "anchors": ["beamconv/instrument.py: ScanStrategy.scan_instrument_mpi, _scan_detector, _update_tod, _init_data, _allocate_detector_data, _allocate_hwp_data, data"]}
{"id": "C106", "title": "Scans by several processes end under every schedule", "statement": "When scan_instrument_mpi and solve_for_map are run by any number of MPI processes, whatever their relative speed, all processes make the same collective calls with fitting arguments: if the part of the work of each process raises no exception, no process waits forever, every process ends, the first one gets the solution of the maps that hold every sample of every live detector once (the smoothed sky, for ideal detectors), and this does not depend on the number of processes, on the schedule, on the contents of uninitialised buffers or on the use of a memory map. If the spin maps of one pair cannot be made, e.g. because the pair has no first detector, its process raises and the other one waits forever (a violation of what a user expects).", "quantifier": "every number of processes, interleaving of their steps, list of detector pairs, generic ground-based strategy, partition in chunks, memory map or none, contents of uninitialised memory", "why_tests_cant": "the interleavings and the numbers of processes are unbounded, and a deadlock shows only for particular combinations of list length and process number", "anchors": ["beamconv/instrument.py: MPIBase.barrier, scatter_list, broadcast_array, reduce_array, ScanStrategy.scan_instrument_mpi, implement_scan, solve_for_map"]}
{"id": "C107", "title": "Whole scans with every way of pointing", "statement": "With external pointing functions, strictly_az, a schedule file or a satellite, a whole run of scan_instrument_mpi observes every sample of the mission once per live detector, in the direction and at the time that the chosen strategy says: the functions' own values; a fixed elevation and an azimuth moving at constant speed from the start of each chunk; the elevation, times and azimuth triangle of the scan of the schedule in which the sample lies; the orbit with spin. This holds for every number of detector pairs and ranks, except that the satellite points elsewhere in the second pass on a rank (a violation). An L2 scan with chunks of several samples always raises NameError, and external pointing never hands on a request for a ground template (violations).", "quantifier": "every pointing strategy and its numeric arguments, partition in chunks, list of detector pairs, number of ranks, instrument rotation and plate motion", "why_tests_cant": "ranges over all missions, schedules, detector sets and ranks; state that leaks from one chunk or pass into the next shows only for particular combinations", "anchors": ["beamconv/instrument.py: ScanStrategy.implement_scan, l2_ctime, l2_scan, satellite_ctime, satellite_scan, strictly_az, schedule_ctime, schedule_scan, scan_instrument_mpi"]}
{"id": "C108", "title": "Interrupted scans can be done again", "statement": "scan_instrument_mpi (without ground template) may be interrupted anywhere, by an exception or a signal, any number of times, on any rank, with any options and detectors, also while the boresight rotation, half-wave plate or elevation steps are being reset. The mission's chunks and the settings of boresight rotation and plate are unchanged afterwards. After reset_instr_rot, reset_hwp_mod, reset_el_steps and allocate_maps, the next scan gives the same maps as if nothing had happened: every sample of every live detector counts once. This holds for the generic ground-based scan with elevation steps and memory map, for external pointing functions and for strictly_az. A satellite's orbit is not reset, and without allocate_maps the samples binned before the interruption count twice (violations of what a user expects).", "quantifier": "every interruption point (between and inside the statements of the loops over passes, chunks and subchunks), number and order of interrupted and complete scans, options, detectors, number of ranks, partition in chunks", "why_tests_cant": "the crash points and the histories of scans before are unbounded", "anchors": ["beamconv/instrument.py: ScanStrategy.scan_instrument_mpi, reset_instr_rot, reset_hwp_mod, reset_el_steps, allocate_maps, rotate_instr, subpart_chunk, rotate_hwp, implement_scan"]}
{"id": "C109", "title": "Reusing spin maps", "statement": "With reuse_spinmaps=True, scan_instrument_mpi makes spin maps only if the strategy has none, and then those of the first detector of each rank; all detectors of the rank are scanned with them. So a first scan equals one without reuse_spinmaps, for every number of ranks, if all beams have the same spin maps, and for any beams if there are at least as many ranks as detector pairs. A later scan (after the resets and allocate_maps) bins the same as the first one, whatever sky it is given. If beams differ, the result depends on the number of ranks: with one rank the second pair gets the signal of the first pair's beam (a violation of what a user expects of MPI).", "quantifier": "every list of detector pairs with a first detector, number of ranks, options, state of the strategy, sky, partition in chunks", "why_tests_cant": "the equality with the run without reuse has to hold for every mission, detector list and number of ranks; the dependence on ranks shows only for some combinations", "anchors": ["beamconv/instrument.py: ScanStrategy.scan_instrument_mpi, init_detpair"]}
{"id": "C110", "title": "Whole scans with a ground template", "statement": "scan_instrument_mpi with ground_alm adds the ground to the sky and does nothing else: for detectors without ghosts the reduced maps hold one observation per live detector and unflagged sample, of value sky (in the direction on the sky) plus ground (in the direction relative to the ground, under the same rotation and HWP angle). Hits and angles are those of the scan without ground, and the binned signal is that of the scan without ground plus that of the ground alone. The number of ranks and earlier scans with a ground have no effect. For the generic scan, the direction relative to the ground belongs to the same azimuth and elevation as the one on the sky. Violations: with live ghosts only the ground, not the sky, is added for them; a preview with a ground and spin maps of an earlier scan bins the ground although a preview has no signal.", "quantifier": "every mission, partition in chunks, focal plane, sky, ground, rotation schedule, stepping HWP, cross-talk, number of ranks, and history of scans with a ground", "why_tests_cant": "additivity and the agreement of both pointings have to hold for every sample of every mission and every number of ranks", "anchors": ["beamconv/instrument.py: ScanStrategy.scan_instrument_mpi, implement_scan, scan, _scan_detector"]}
{"id": "C111", "title": "Chunk and step counts in double precision", "statement": "Numbers of chunks, rotation periods, HWP and elevation steps, elevation checks and detector passes are computed by dividing floats and rounding up. In double precision the results are the exact ones for all integers below 2^53; in particular partition_mission makes the same chunks as in exact arithmetic. Above 2^53 samples are lost.", "quantifier": "every number of samples below 2^53 and every chunk size, period or number of ranks", "why_tests_cant": "a rounding error that makes one chunk too few or too many would show up for rare pairs of numbers only", "anchors": ["beamconv/instrument.py: partition_mission, subpart_chunk, step_array, implement_scan, scan_instrument_mpi"]}
{"id": "C112", "title": "Counts from durations and rates in double precision", "statement": "int(duration * sample_rate), int(period * fsamp), int(check_interval * fsamp), int(fsamp / freq) and int(ndet * killfrac) give the number that a user computes by hand. This is so if the exact product of the two doubles is an integer; otherwise the result is within one of it. A strategy made again from its own duration and rate has the same number of samples or one less. Violations: 0.29 s at 100 Hz are 28 samples, and duration 0.29, rate 100 and 29 samples together are refused; a plate stepping at 0.1 Hz with 19.7 samples per second steps after 196 samples.", "quantifier": "all durations, rates, periods and fractions", "why_tests_cant": "depends on the last bit of the inputs; tests with round numbers do not see it", "anchors": ["beamconv/instrument.py: ScanStrategy.__init__, set_instr_rot, set_hwp_mod, set_el_steps, implement_scan, kill_channels"]}
{"id": "C113", "title": "Times in double precision", "statement": "The times of samples do not depend, not even in the last bit, on how the mission is cut into chunks; they never decrease and are right up to two roundings. Times of different samples differ as long as time times sample rate is below 2^53/5; at 10 MHz they do not (violation).", "quantifier": "every sample rate, start time and sample number", "why_tests_cant": "needs all sample numbers and rates", "anchors": ["beamconv/instrument.py: implement_scan, l2_ctime, satellite_ctime"]}
{"id": "C114", "title": "Sums over samples, detectors and ranks in double precision", "statement": "In double precision hits are exact and independent of the number of ranks, chunks and order of detectors, up to 2^53 per pixel. The summed signal of n numbers depends on the order and grouping by at most 2((1+u)^(n-1)-1) times the sum of absolute values, u = 2^-53; it does depend on it (violation), so maps made with different numbers of ranks agree only up to rounding.", "quantifier": "every order and grouping of additions of every list of numbers", "why_tests_cant": "MPI chooses the order; all groupings have to be considered", "anchors": ["beamconv/instrument.py: bin_tod, solve_for_map, reduce_array"]}
{"id": "C115", "title": "Interrupted scans with a ground template can be done again", "statement": "Whatever scans with or without ground template have been done before, complete or stopped at any point (also with only some chunks marked as scanned with a ground): after reset_instr_rot, reset_hwp_mod, reset_el_steps and allocate_maps on every rank a scan with ground_alm gives the maps of a fresh scan. A scan without ground does so only if partition_mission is called again as well; otherwise the chunks keep the key 'ground' and the scan fails (violation).", "quantifier": "every history of scans and resets, every point of interruption, every number of ranks, every mission", "why_tests_cant": "the points of interruption and the histories are unbounded", "anchors": ["beamconv/instrument.py: scan_instrument_mpi, reset_instr_rot, reset_hwp_mod, reset_el_steps, allocate_maps, partition_mission"]}
{"id": "C116", "title": "Whole scans with filtered timelines", "statement": "scan_instrument_mpi with filter_highpass (and filter_4fhwp for a turning plate) bins, for every live detector and every sample, exactly one observation in the direction and under the angles of that sample, with the value of the timeline after each stretch between ends of chunks and boresight rotations has gone through the filters by itself. The projection matrices are those of the scan without filters, without filters the scan is that of C96, the maps do not depend on the number of ranks, and constants per stretch are lost. The maps do depend on the partition in chunks, and cutoff 0 gives NaN (violations).", "quantifier": "every sky, list of detector pairs, mission, partition, plate and rotation schedule, filter setting, number of ranks", "why_tests_cant": "signals, partitions, schedules and numbers of ranks are unbounded", "anchors": ["beamconv/instrument.py: scan_instrument_mpi, bin_tod, set_filter_dict", "beamconv/tools.py: filter_tod_hwp, filter_tod_highpass"]}
{"id": "C117", "title": "Preparing a detector pair", "statement": "Preparing a detector pair for a scan (init_detpair) makes the maps of the main beam and of every ghost of A from that beam's own coefficients, loading or generating those that are not in memory, and with its own azimuthal limit. Afterwards no beam of the pair holds coefficients, no other beam and no other attribute is touched, so the preparation can be repeated with the same result. The repetition does not hold for main beams whose FITS file lowers the azimuthal limit: the second scan uses fewer azimuthal numbers than the first, and a symmetric beam then loses polarization (violations).", "quantifier": "every history of making, changing and reusing beams and ghosts, every pair, every loader and map maker, any number of repetitions", "why_tests_cant": "histories of beam objects, numbers of ghosts and of repetitions are unbounded; the violation needs a second scan with the same objects", "anchors": ["beamconv/instrument.py: init_detpair, init_spinmaps", "beamconv/detector.py: Beam.blm, Beam.delete_blm, Beam.reuse_blm, Beam.load_blm"]}
{"id": "C118", "title": "Whole scans with beam objects", "statement": "A whole scan of detector pairs that are beam objects (made, changed and given ghosts by the user) gives maps of exactly one observation per live detector and unflagged sample, each pair seeing the convolution of the sky with its own beam and ghosts at its own pointing, whatever the number of MPI ranks. With MPI the objects stay as they are; without, they can be used for further scans. Repeated scans with the same objects give the same maps, except with main beams whose FITS file has a lower azimuthal limit than the beam: without MPI the second scan differs from the first, with MPI it does not (violation). Previews, and scans that reuse existing spin maps, only read the objects: they end even if no coefficients can be loaded, leave the objects as they are, and give the observations of the real scan with signal zero, or with the existing spin maps. With a ground template the same holds, each pair seeing in addition the ground (but see C70 and C110 for what ghosts do to it).", "quantifier": "every heap of beam objects, every list of pairs (empty places, beams shared between pairs), every number of ranks, with and without MPI, any number of scans, every loader, sky, motion of telescope, boresight and stepped or fixed plate, every partition in chunks", "why_tests_cant": "the state of the beam objects couples pairs and scans; the number of pairs, ranks and scans is unbounded, and the difference between a serial and an MPI run appears only in a second scan with the same objects", "anchors": ["beamconv/instrument.py: ScanStrategy.scan_instrument_mpi, init_detpair, MPIBase.scatter_list", "beamconv/detector.py: Beam.blm, Beam.delete_blm, Beam.load_blm"]}
{"id": "C119", "title": "From create_focal_plane to the map", "statement": "A user who creates a focal plane of Gaussian beams with create_focal_plane, scans a sky with it any number of times, and solves for the map, finds in every pixel seen under three angles exactly the sky smoothed with the Gaussian they asked for (width, amplitude, band limit with the documented defaults), the polarization rotated by twice the error of the detector angles plus four times the HWP phase; pixels not seen are filled. This holds for any grid, any field of view, with or without B detectors, with and without MPI and for any number of ranks. The same holds for any objects that share a beam symmetric around its axis.", "quantifier": "every grid size and field of view, every dictionary of options with a Gaussian beam, every reachable focal plane the grid is added to, every sky, motion of telescope, boresight and plate, every partition in chunks, any number of scans, of ranks, with and without MPI", "why_tests_cant": "the chain from the options to the map passes through object creation, the loading of coefficients, the convolution, the pointing of each detector, binning and solving; sizes of grid, scan and number of ranks are unbounded", "anchors": ["beamconv/instrument.py: Instrument.create_focal_plane, ScanStrategy.scan_instrument_mpi, init_detpair, solve_for_map", "beamconv/detector.py: Beam.__init__, Beam.gen_gaussian_blm, Beam.blm", "beamconv/tools.py: gauss_blm, get_copol_blm"]}
{"id": "C120", "title": "MPI is used exactly when it should be", "statement": "MPI is used exactly if the program was launched by mpirun (one of the environment variables of Open MPI, MPICH or Intel MPI is set), the user did not pass mpi=False, and mpi4py can be imported. Otherwise every process is rank 0 of 1 and broadcasting, sharing and summing leave everything as it is. With MPI, rank and size are those of COMM_WORLD or of the communicator the user passes; broadcast objects and arrays are those of the root on every rank; summed arrays are the elementwise sum on the root and None on the other ranks.", "quantifier": "every environment, every number of processes, every communicator, every object and array on every process", "why_tests_cant": "tests run in one process without MPI; the branches depend on environment, imports and communicators with any number of processes", "anchors": ["beamconv/instrument.py: MPIBase.__init__, mpi_rank, mpi_size, broadcast, broadcast_array, reduce_array"]}
{"id": "C121", "title": "One focal plane on many ranks", "statement": "When all ranks of an MPI job make the same calls to create or load detectors and to kill channels, they describe one focal plane: every rank knows the number of all detectors, all detectors have different indices, killing kills the drawn detectors and no others, and a scan works on every pair exactly once over all ranks, with the same number of passes on every rank. This holds with and without scattering the detectors over the ranks when they are created or loaded.", "quantifier": "every number of ranks, every sequence of calls, every number of detectors, every random draw", "why_tests_cant": "needs several processes, any number of them, and any history of calls on all of them", "anchors": ["beamconv/instrument.py: Instrument.create_focal_plane, Instrument.load_focal_plane, Instrument.kill_channels, ScanStrategy.scan_instrument_mpi, MPIBase.distribute_array, MPIBase.scatter_list"]}
{"id": "C122", "title": "What solve_for_map returns on every process", "statement": "solve_for_map returns, on the root, the solved map, the condition number of every pixel and, if asked for, the projection matrices, of the observations of all processes together: pixels seen under three polarization angles hold the solution of their equations and their condition number (the ratio of the largest to the smallest eigenvalue), all other pixels hold the fill value as condition number, pixels never seen hold the fill value in the map; the first row of the matrices is the number of hits. All other processes get None. Without MPI every process gets the same for its own observations. A condition number is never below two, and is two where the polarization angles are balanced.", "quantifier": "every number of processes, every set of observations on each of them, every fill value, every pixel", "why_tests_cant": "holds for every distribution of observations over processes, pixels and angles", "anchors": ["beamconv/instrument.py: ScanStrategy.solve_for_map, MPIBase.reduce_array"]}
{"id": "C123", "title": "What plot_iqu writes to disk", "statement": "plot_iqu writes exactly one plot for every Stokes map it is given, each to the file of its own letter; the plot of a map shows that map's own pixels, without the masked ones, with the plotting function, the resolution, the options shared by all maps and those of that map, between the limits that were asked for (limits, else sym_limits, else min and max, else -10 and 10); limits left to the data contain the data of the map they belong to.", "quantifier": "every three or four maps of any size and content, every mask, every combination of limits, shared options and options per map", "why_tests_cant": "the limits and options interact: every combination of them and every content of the maps is meant", "anchors": ["beamconv/plot_tools.py: plot_iqu, plot_map, round_sig"]}
{"id": "C124", "title": "What input_focal_plane makes of tables of positions and angles", "statement": "input_focal_plane makes one pair of detectors for every row of the tables, an A detector from column 0 and a B detector from column 1, with exactly these positions, polarization angles and dead flags (alive if no table of dead flags is given), and with the remaining options handed on; options for position, polarization and name are ignored as documented. The pairs follow the existing ones with combine and replace them without; existing detectors do not change, the detector count grows by two for each row, and new detectors get numbers of their own.", "quantifier": "every history of calls before, every number of rows, every table, every set of options", "why_tests_cant": "holds for every table and every state of the focal plane before the call", "anchors": ["beamconv/instrument.py: Instrument.input_focal_plane"]}
{"id": "C125", "title": "Which beam files load_focal_plane loads, and what each of them makes", "statement": "Without file_names, load_focal_plane(bdir, tag=...) loads every visible file <*tag*.pkl> of the directory once, in the order of the names, and raises RuntimeError exactly if there is none. With file_names it loads exactly the named files that contain the tag, as often as they are given, in the order of the names, and raises OSError exactly if one of them does not exist. Every file gives one pair: the options of the call win over those of the file, the polarization angles are those of the options plus polang_A and polang_B, B is dead with no_pairs, and the detectors are numbered in turn after the existing ones. Whatever a file holds, its own contents decide over its detectors.", "quantifier": "every directory, every tag, every list of names, every contents of the files, every set of options, every history of calls before", "why_tests_cant": "holds for every directory and every contents of its files", "anchors": ["beamconv/instrument.py: Instrument.load_focal_plane"]}
{"id": "C126", "title": "The transfer matrix of a layer carries the plane waves of Maxwell's equations", "statement": "For every plane wave that Maxwell's equations allow in the material of a layer (with its dielectric tensor turned by the rotation of the layer), transferMatrix takes the tangential fields at the back of the layer to those at its front: they are multiplied by the phase factor of the wave.", "quantifier": "every material, thickness, frequency, angle of incidence and rotation, every wave in the material", "why_tests_cant": "holds for all waves in all crystals in a continuum of directions; a test compares a few numbers", "anchors": ["beamconv/transfer_matrix.py: transferMatrix, material"]}
{"id": "C127", "title": "Stacks of isotropic layers follow the theory of thin films at every angle of incidence", "statement": "For every stack of layers without axes and every angle of incidence without total reflection the transmitted and reflected Jones matrices are diagonal with the textbook coefficients of thin films for the two polarizations, however the layers and the stack are turned. So energy is conserved at every angle (and never gained with losses), a bare interface has Fresnel's coefficients and Brewster's angle, a quarter-wave coating with the geometric mean of the indices reflects nothing at normal incidence, and half-wave layers change nothing but a sign.", "quantifier": "every number of layers, every index, thickness, loss, orientation, frequency, angle of incidence and pair of surrounding media", "why_tests_cant": "holds for every stack and all of a continuum of parameters", "anchors": ["beamconv/transfer_matrix.py: stackTransferMatrix, TranToJones, transferMatrix"]}
{"id": "C128", "title": "Light stays light: Mueller matrices never make impossible Stokes parameters", "statement": "Every Mueller matrix the library computes (JonesToMueller, Mueller for transmission and reflection, compute_mueller of an HWP, BandAveragedMueller with sources and responses that are not negative, MuellerRotation of such a matrix) turns Stokes parameters with sqrt(Q^2+U^2+V^2) <= I into such Stokes parameters, and passive plates at normal incidence do not raise I.", "quantifier": "every Jones matrix, stack, frequency, angle, band, source and response; every unpolarized, partly or fully polarized light", "why_tests_cant": "holds for all matrices and the whole cone of Stokes parameters", "anchors": ["beamconv/transfer_matrix.py: JonesToMueller, Mueller, BandAveragedMueller, MuellerRotation", "beamconv/detector.py: HWP.compute_mueller"]}
{"id": "C129", "title": "What a symmetric beam behind any plate measures", "statement": "A detector with a symmetric co-polar beam behind any real Mueller matrix, at any polarization angle, measures the convolution of the sky with its beam behind that plate, turned by the HWP angle.", "quantifier": "all real 4x4 matrices, polarization angles, skies with I, Q, U, V, symmetric co-polar beams, ghosts, pointings and HWP angle histories", "why_tests_cant": "a relation over all matrices, angles and skies; tests use ideal plates at a few angles", "anchors": ["beamconv/instrument.py: ScanStrategy.blmxhwp, ScanStrategy._init_spinmaps, ScanStrategy._scan_modulate_pa", "beamconv/tools.py: mueller2spin, shift_blm"]}
{"id": "C130", "title": "set_hwp_mueller gives a beam the matrix of the plate that is asked for", "statement": "Beam.set_hwp_mueller gives the beam the Mueller matrix, at the frequency of the beam and at its angle from the axis, of the preset that is named, or else of the layers that are given; if it fails the beam keeps its matrix; no other beam is changed, also if beams share an HWP object, and earlier calls make no difference.", "quantifier": "all beams (offsets, frequencies, with or without an HWP object, shared or not), all combinations of arguments, all histories of calls", "why_tests_cant": "sharing of objects and histories of calls; combinations of optional arguments", "anchors": ["beamconv/detector.py: Beam.set_hwp_mueller, HWP.stack_builder, HWP.choose_HWP_model, HWP.compute_mueller"]}
{"id": "C131", "title": "Scans with plates that are given by their layers", "statement": "A plate whose layers have their axes along or across one direction lets pass the amplitudes of the theory of thin films along and across it, and detectors whose beams got their matrix from such layers measure the convolution of the sky with their beams behind this plate, turned by the HWP angle.", "quantifier": "all stacks of aligned uniaxial or isotropic layers with losses, frequencies, angles of incidence below 90 degrees, beams, ghosts, skies, polarization angles, pointings and HWP angle histories", "why_tests_cant": "relates optics, spin maps and timelines for all stacks, skies and pointings; no test combines them", "anchors": ["beamconv/detector.py: Beam.set_hwp_mueller, HWP.compute_mueller", "beamconv/transfer_matrix.py: transferMatrix, stackTransferMatrix, TranToJones, Mueller", "beamconv/instrument.py: ScanStrategy.blmxhwp, ScanStrategy._init_spinmaps, ScanStrategy._scan_modulate_pa"]}
{"id": "C132", "title": "Jones and Mueller describe the same plate", "statement": "For every stack, frequency, angle and value of reflected, Mueller succeeds exactly if Jones does, its matrix acts on the Stokes parameters of a field as the Jones matrix acts on the field, and a value of reflected that is neither True nor False raises ValueError.", "quantifier": "all stacks (also empty ones), frequencies, angles of incidence, rotations, indices of the surrounding media, values of reflected and fields", "why_tests_cant": "a relation between two functions for all stacks and fields", "anchors": ["beamconv/transfer_matrix.py: Mueller, Jones, TranToJones, JonesToMueller"]}
{"id": "C133", "title": "Scans with every way of pointing end under every schedule of the processes", "statement": "Whenever a scan with functions of the user, strictly_az, a schedule file, a satellite or L2 pointing succeeds on every process alone, the processes together, running at any relative speed and computing the pointing in parallel, all end. The first one gets from solve_for_map the solution of the maps that hold every sample of every live detector once, and the others get None.", "quantifier": "all strategies and their arguments, missions, detector pairs, numbers of processes, contents of uninitialised memory and interleavings of the processes", "why_tests_cant": "a test run sees one interleaving, one number of processes and one content of memory", "anchors": ["beamconv/instrument.py: ScanStrategy.implement_scan, strictly_az, satellite_scan, schedule_scan, l2_scan, scan_instrument_mpi, solve_for_map"]}
{"id": "C134", "title": "Cross-talk scales the map", "statement": "With cross-talk c, a fraction c of each detector's timeline is added to that of its partner. If the two detectors of each pair look in the same direction with orthogonal polarization angles and share a beam that is symmetric around its axis, the solved map has (1 + c) times the I and (1 - c) times the Q and U of a scan without cross-talk. If at most one detector of each pair is alive, the map does not depend on c.", "quantifier": "all values of c, skies, symmetric beams, focal planes, missions, boresights, steady or turning half-wave plates without Mueller matrix, numbers of scans and of processes", "why_tests_cant": "a test compares one map at one c with one expected number; the factors must hold for every c, sky, pixel and history of scans", "anchors": ["beamconv/tools.py: cross_talk", "beamconv/instrument.py: ScanStrategy.scan_instrument_mpi, solve_for_map, Instrument.create_focal_plane"]}
{"id": "C135", "title": "Maps behind half-wave plates", "statement": "If all detectors have the Mueller matrix of a half-wave plate that multiplies I by t and makes k (Q - iU) of Q + iU, the solved map of a sky without V has t times the I and k times the Q + iU of a map without Mueller matrix, whatever the angles of the plate and of the detectors: |k| is the polarization efficiency, the phase of k four times the angle of the axis of the plate. Aligned layers that let pass opposite amplitudes are such a plate.", "quantifier": "all t, k, skies without V, symmetric co-polar beams, focal planes, polarization angles, missions, boresights, HWP angle histories, numbers of scans and of processes", "why_tests_cant": "a test compares one map behind one plate with one expected map; the factors must hold for every plate, sky, pixel and history of scans", "anchors": ["beamconv/instrument.py: ScanStrategy.blmxhwp, _init_spinmaps, _scan_modulate_pa, scan_instrument_mpi, solve_for_map, Instrument.create_focal_plane", "beamconv/detector.py: Beam.hwp_mueller", "beamconv/transfer_matrix.py: Mueller"]}
{"id": "C136", "title": "Pointing jitter on several processes", "statement": "A satellite scan with jitter_amp different from 0, by several processes with random numbers of their own, ends whatever their relative speed. In every chunk all processes have the same pointing: that of a satellite without jitter, with every elevation off by jitter_amp times one normal deviate. Processes seeded alike have the pointing of a single process, and jitter_amp = 0 leaves the scan as it is. All detectors of a scan see the sky along the same pointing.", "quantifier": "all amplitudes, sequences of normal deviates on every process, numbers of processes, chunk lengths, schedules of the processes", "why_tests_cant": "jitter is random and its samples are spread over processes; agreement of all processes must hold for every sequence of deviates, number of processes and schedule", "anchors": ["beamconv/instrument.py: ScanStrategy.satellite_scan, scan_instrument_mpi, implement_scan"]}
{"id": "C137", "title": "Maps are linear in the beams", "statement": "The binned maps of a scan are linear in the beams: if the coefficients of every main beam and every ghost are a sum of two sets, the second times a number, the signal in every pixel is the sum of those of the two sets, the second times that number; hits and angles are the same. So a gain that all beams share scales the map, and what ghosts add to the map is proportional to their amplitude and vanishes with it: with amplitude 0 the map is that of detectors without ghosts.", "quantifier": "all focal planes with ghosts, beams, plates, cross-talk, skies, real factors, missions, numbers of ranks", "why_tests_cant": "linearity must hold for all beams, factors, focal planes and missions; beam coefficients pass through shifts, conjugations and Mueller matrices that differ for every spin", "anchors": ["beamconv/instrument.py: ScanStrategy.init_spinmaps, _init_spinmaps, blmxhwp, _spinmaps_real, _spinmaps_complex, scan, scan_instrument_mpi, bin_tod"]}
{"id": "C138", "title": "Sum and difference of a pair of detectors", "statement": "For two live detectors that look in the same direction with polarization angles 90 degrees apart and beams without Mueller matrix, the sum of the two stored timelines does not depend on the polarization of the sky, and their difference does not depend on its intensity and circular polarization. This holds with ghosts, a turning half-wave plate and cross-talk between the two.", "quantifier": "all focal planes, pairs at right angles in them, ghosts, beams, cross-talk, plate rotations, pairs of skies, missions, chunks, numbers of ranks", "why_tests_cant": "leakage must vanish for every sky, beam and pointing; a test sees a few skies, and an error in a sign or in the order of cross-talk and accumulation shows only for some", "anchors": ["beamconv/instrument.py: ScanStrategy.scan, _scan_detector, scan_instrument_mpi, data", "beamconv/tools.py: cross_talk"]}
{"id": "C139", "title": "Which coefficients of sky and beams are used", "statement": "Spin maps, and with them all maps and stored timelines, depend on sky and beams only through the coefficients with l up to the smaller of the two band limits and, of the beam, with m up to min(mmax, max_spin) (2 for symmetric beams), 4 more behind a Mueller matrix. Giving the sky or a beam with a larger band limit, a larger max_spin than mmax, or V rows that are 0 changes nothing.", "quantifier": "all skies, beams and ghosts with any band limits, max_spin, V options and Mueller matrices, focal planes, missions, options and numbers of ranks", "why_tests_cant": "an index that is off by one in the truncation of arrays mixes modes for some combinations of band limits only; all combinations and all coefficients must agree", "anchors": ["beamconv/instrument.py: ScanStrategy.init_spinmaps, _init_spinmaps, blmxhwp, _spinmaps_real, _spinmaps_complex, scan_instrument_mpi", "beamconv/tools.py: trunc_alm, shift_blm"]}
{"id": "C140", "title": "Binning the stored data gives the maps", "statement": "After scan_instrument_mpi with save_tod and save_point, without ground and interpolation, with spin maps of the resolution of the output maps and no flagged samples, the arrays tod, pix, pa and hwp_ang that data() returns on the ranks suffice to make the maps again: with polarization weights at the angle polang - pa + 2 (hwp_ang - varphi), the sums over all live detectors, chunks and samples of the stored arrays are exactly the maps (summed over ranks), cross-talk included.", "quantifier": "every list of detector pairs with distinct indices, number of ranks, partition in chunks, instrument and plate rotation, cross-talk, sky and beams, and earlier content of the store", "why_tests_cant": "one sample stored before cross-talk is added, in the wrong chunk, or with the angle of another detector makes the two differ for some schedule; every sample of every detector must agree", "anchors": ["beamconv/instrument.py: ScanStrategy.scan_instrument_mpi, _scan_detector, data, bin_tod", "beamconv/tools.py: cross_talk"]}
{"id": "C141", "title": "A uniform sky gives uniform timelines and maps", "statement": "If the sky is unpolarized and has the temperature T everywhere, the timeline of every detector that scan_instrument_mpi stores is constant: T times the sum of the monopoles of its main beam and of its live ghosts, plus the cross-talk of its partner, whatever the shape of the beams, the pointing and the HWP angle. If this amplitude K is the same for all detectors, the solved map is (K T, 0, 0) in every pixel seen under three angles, so no beam shape, ghost or wrong detector angle makes polarization from a uniform sky; pixels not seen are filled.", "quantifier": "every temperature, list of detector pairs with any beams and ghosts (no HWP Mueller matrix), cross-talk, with or without interpolation, number of ranks, partition in chunks, motion of telescope and plate", "why_tests_cant": "leakage of the monopole could come from one azimuthal mode of one beam, one ghost, or one angle of the plate only; an exact zero must hold for all of them", "anchors": ["beamconv/instrument.py: ScanStrategy.scan_instrument_mpi, _init_spinmaps, _spinmaps_real, _spinmaps_complex, scan, bin_tod, solve_for_map", "beamconv/tools.py: cross_talk"]}
{"id": "C142", "title": "Rotating the instrument is rotating the boresight", "statement": "The maps of scan_instrument_mpi depend on the boresight and on the angles of set_instr_rot only through their product: two strategies for which the boresight, turned by the instrument's rotation, is the same in each sample (with the same times, HWP angles and flags) give the same maps, whatever their chunks and numbers of ranks. So angles that differ by full turns give the same maps, and rotating the instrument can be replaced by a turned boresight. For detectors on the boresight with symmetric beams, without ghosts and Mueller matrix, turning the instrument by an angle is lowering polang by this angle.", "quantifier": "every pair of strategies, schedules of instrument rotation, partitions, numbers of ranks, lists of detector pairs with spin maps and ghosts, HWP motion and angle", "why_tests_cant": "a rotation applied on the wrong side of the detector offset, with the wrong sign, or at the wrong sample is visible only for some offsets, schedules and chunk boundaries", "anchors": ["beamconv/instrument.py: ScanStrategy.set_instr_rot, rotate_instr, scan, bin_tod", "beamconv/tools.py: quat_left_mult"]}
{"id": "C143", "title": "Common angle errors turn the polarization, and whole turns of the plate do nothing", "statement": "If the angles polang of all detectors are wrong by e degrees (polang higher, the true angle the same) and varphi of set_hwp_mod by delta degrees, the I of every solvable pixel is unchanged and its polarization is turned by 2 (e - 2 delta) degrees, with any beams, ghosts, half-wave plates and cross-talk; pixels that were not seen stay filled. The angle of the plate counts only up to half turns, and only up to quarter turns if no beam has a Mueller matrix: the maps are the same.", "quantifier": "every strategy, partition, number of ranks, list of detector pairs with spin maps and ghosts, sky, motion of the plate, angle error, varphi and turns added to the plate in each sample", "why_tests_cant": "a factor of two or a sign in one of the angles, or an angle used for the data but not for the map, cancels for special angles and shows up only for others", "anchors": ["beamconv/instrument.py: ScanStrategy.set_hwp_mod, scan, bin_tod, solve_for_map", "beamconv/detector.py: Beam.polang, Beam.polang_error, Beam.polang_truth"]}
{"id": "C144", "title": "From tables of detectors to the map", "statement": "A focal plane made by input_focal_plane from tables of azimuths, elevations and polarization angles, with or without a table of dead detectors, all with the same Gaussian beam and angle error, is scanned any number of times: each scan ends normally, and the map of every pixel that the living detectors see under three angles is the sky smoothed with that Gaussian, with the polarization turned by the common angle error and varphi; pixels nobody saw are filled. With cross-talk c between orthogonal partners, I is scaled by 1+c and the polarization by 1-c; with a Mueller matrix that scales like a half-wave plate, by the transmissions of the plate.", "quantifier": "every table of any length, set of dead detectors, width, amplitude, band limit, sky, scan strategy, partition, number of ranks and list of scans", "why_tests_cant": "one swapped column, a missing row or a wrong sign shows up only for particular positions and angles; tests use one grid", "anchors": ["beamconv/instrument.py: Instrument.input_focal_plane, ScanStrategy.scan_instrument_mpi, solve_for_map", "beamconv/detector.py: Beam.gen_gaussian_blm"]}
{"id": "C145", "title": "Losing detectors costs coverage, not correctness", "statement": "After kill_channels killed any fraction of the detectors or pairs of a focal plane, whatever the draw, or remove_from_focal_plane took detectors away, scans still end normally, and the map of every pixel that the remaining detectors see under three angles is exactly the sky seen through the beam; pixels only lost detectors saw are filled.", "quantifier": "every focal plane of detectors that share a beam, fraction, random draw, set of detectors taken away, sky, scan strategy, partition, number of ranks and list of scans", "why_tests_cant": "which detectors die is random, and a lost detector that still contributes (or a living one that does not) only changes the map where coverage is thin", "anchors": ["beamconv/instrument.py: Instrument.kill_channels, Instrument.remove_from_focal_plane, ScanStrategy.scan_instrument_mpi"]}
{"id": "C146", "title": "From files of detectors to the map", "statement": "load_focal_plane loads files that describe pairs of detectors with the same beam (of any type, symmetric around its axis), in one dictionary or in one per detector; options of the call replace those of the files, polang_A and polang_B are added to the angles, and no_pairs makes B dead. The call succeeds on a new focal plane. Each of any number of scans ends normally, and the map of every pixel that the living detectors see under three angles is the sky seen through that beam, with the polarization turned by the common angle error and varphi; pixels nobody saw are filled. With a Mueller matrix that acts like a half-wave plate, the map is scaled by the transmissions of the plate. If A and B of each pair look in the same direction with orthogonal angles, cross-talk c multiplies I by 1 + c and Q and U by 1 - c.", "quantifier": "every directory, choice of files, contents of the files and options of the call that describe such detectors, sky, scan strategy, partition, number of ranks and list of scans", "why_tests_cant": "precedence of options, the shift of the angles and the assignment of dictionaries to A and B interact with every kind of file; a slip shows up as a wrong map only for some of them", "anchors": ["beamconv/instrument.py: Instrument.load_focal_plane, ScanStrategy.scan_instrument_mpi, solve_for_map", "beamconv/detector.py: Beam.__init__, Beam.blm"]}
{"id": "C147", "title": "Light passes a stack the same way in both directions", "statement": "At normal incidence the transmission Jones matrix of a stack for light from the other side (layers in reverse order, media exchanged) is the transpose of that from the front, up to the ratio of the indices of the media; a stack turned over about its x axis has the transpose with the y direction reversed; compute_mueller follows with rows and columns exchanged and the sign of V (turned over: U) reversed; the two cross-polar reflections of a passive stack are the same up to the sign convention. A plate in air whose layers have their axes along or across one direction has the same matrix from both sides, also turned over, at every angle of incidence below 90 degrees.", "quantifier": "all stacks (any number of layers, birefringent or not, with or without losses, any thicknesses and angles), frequencies, rotations, surrounding media", "why_tests_cant": "reciprocity relates two different inputs for every stack; a slip in the order of the product, in a transposed index or in the frame of a layer shows up only for stacks that lack the symmetry of the test case", "anchors": ["beamconv/transfer_matrix.py: transferMatrix, stackTransferMatrix, TranToJones, JonesToMueller", "beamconv/detector.py: HWP.compute_mueller, HWP.stack_builder"]}
{"id": "C148", "title": "Turning a beam about its axis", "statement": "A user turns a beam about its axis by the angle psi, with its shape and polarization, by multiplying the coefficients with azimuthal number m by exp(-i m psi). In every sample it then measures what the beam measured that is not turned, at a position angle that is larger by psi; ghosts may be turned by angles of their own. For a detector on the boresight the timeline is the one of the untouched beam with the instrument rotated by psi more. For a beam that is symmetric around its axis it is the one of the untouched beam with the polarization angle lowered by psi, and if all beams of a focal plane are turned like this the I map is right and Q + iU is turned by -2 psi.", "quantifier": "every sky, beam coefficients, angle, HWP and polarization angle, sample, spin limit, focal plane of symmetric beams, scan strategy, number of ranks and list of scans", "why_tests_cant": "tests scan a few beams at a few angles; the sign of the phase has to be right for every azimuthal number, positive and negative, of all of I, P and V", "anchors": ["beamconv/instrument.py: ScanStrategy.scan, _scan_modulate_pa, init_spinmaps, blmxhwp", "beamconv/tools.py: shift_blm"]}
{"id": "C149", "title": "Maps do not depend on the order of the observations", "statement": "If the samples of a mission are taken in a different order (each with the same pointing on the sky, instrument rotation, HWP angle and flag), by the same detectors in a different order, in different chunks and on a different number of ranks, the maps of hits, projection matrices and signal are the same. And the maps of a mission are the sums of the maps of its first part and of its second part when these are scanned as missions of their own.", "quantifier": "every mission, permutation of its samples, point at which it is cut, partition into chunks, focal plane with ghosts and cross-talk, numbers of ranks, boresight and HWP schedules, interpolation or not", "why_tests_cant": "the number of orders grows as the factorial of the number of samples; tests compare the maps of at most a few chunk sizes", "anchors": ["beamconv/instrument.py: ScanStrategy.scan_instrument_mpi, scan, bin_tod, allocate_maps, partition_mission"]}
{"id": "C150", "title": "The solved map is the best fit to the timelines", "statement": "In every pixel that has been seen under three polarization angles solve_for_map returns the values of I, Q and U for which the sum of the squared residuals of all samples of all detectors in that pixel is smallest, and no others; the residuals have mean zero and no correlation with the angles. This holds whatever the samples are: also for asymmetric beams, ghosts, cross-talk and noise, where no map explains them. Noise added to the samples changes the solved map by the map solved from the noise alone, whatever the sky. Observing the same again does not change the solved map.", "quantifier": "every set of observations, value of the samples, noise, pixel, list of detectors with any beams and ghosts, scan, number of ranks", "why_tests_cant": "tests solve maps of noiseless symmetric beams, for which every weighting of the samples gives the same answer", "anchors": ["beamconv/instrument.py: ScanStrategy.bin_tod, solve_for_map, scan_instrument_mpi"]}
{"id": "C151", "title": "Filters multiply each frequency by a number between 0 and 1, or refuse", "statement": "For every setting of filter_4fhwp, filter_highpass and filter_dict, every sampling rate, plate frequency (also zero, negative, or so high that the band is beyond the Nyquist frequency), cutoff and order, and every number of samples, one of three holds for all timelines of that length: the filters raise ValueError, or they make NaN of the timeline, or they multiply every frequency by a real number between 0 and 1 that does not depend on the timeline. So whether they work does not depend on the data, they are linear, and they never amplify: the sum of the squared samples does not grow.", "quantifier": "every filter setting, positive sampling rate, plate frequency, cutoff, order, number of samples, timeline", "why_tests_cant": "tests filter a few sinusoids at one setting; slices that wrap around or are cut off occur at other plate frequencies and lengths", "anchors": ["beamconv/tools.py: filter_ft_hwp, filter_tod_hwp, filter_tod_highpass, tukey_window", "beamconv/instrument.py: ScanStrategy.bin_tod"]}
{"id": "C152", "title": "Filtered scans are linear in the sky", "statement": "A scan with filter_4fhwp and filter_highpass, with any setting for which the filters return numbers, is linear in the input sky: the binned signal of sky1 + c sky2 is that of sky1 plus c times that of sky2, hits and angles do not depend on the sky, and the solved maps are linear in every pixel with a regular matrix. This holds for all focal planes with ghosts, non-ideal plates and cross-talk, plates that stand, step or turn at any speed in any direction, all missions, chunks and rotations, and any number of ranks.", "quantifier": "every pair of skies, factor, list of detectors, plate motion, mission, partition, filter setting that returns, number of ranks", "why_tests_cant": "linearity concerns all pairs of skies and all filter settings, and no test runs a scan with filters", "anchors": ["beamconv/instrument.py: ScanStrategy.scan_instrument_mpi, _scan_detector, bin_tod, solve_for_map", "beamconv/tools.py: filter_tod_hwp, filter_tod_highpass"]}
{"id": "C153", "title": "Focal planes with filtered timelines: independent detectors, best fit", "statement": "In a scan with filters that return numbers the maps of a focal plane are the sum of the maps of its parts, each scanned on its own with the same filters; neither the order of the pairs nor the number of ranks matters; and in every pixel seen under three angles the solved map is the one that fits the filtered timelines best. This holds for plates that stand, step or turn at any speed in any direction, all missions, partitions, rotations, beams, ghosts and cross-talk.", "quantifier": "every list of detector pairs and cut of it, order, number of ranks, plate motion, mission, partition, filter setting that returns, pixel", "why_tests_cant": "no test runs a scan with filters, and the sum rule concerns all focal planes", "anchors": ["beamconv/instrument.py: ScanStrategy.scan_instrument_mpi, _scan_detector, bin_tod, solve_for_map"]}
{"id": "C154", "title": "Whether a filtered scan works depends on the settings only", "statement": "A scan with filter_4fhwp and filter_highpass, with any settings, of at least one sample by at least one live detector, does one of three things: it raises ValueError, exactly if there is a stretch (a chunk, or a part of it between two rotations of the instrument) whose length the filters refuse; it returns maps with NaN, exactly if the filters make NaN of all stretches; or it returns maps without NaN. Which of the three depends neither on the sky, the beams and the detectors, nor on the number of ranks. With filter_4fhwp it raises if the plate does not turn continuously, and also if the plate makes less than a tenth of a revolution in just one stretch, such as a last chunk of a few samples.", "quantifier": "every filter setting, sky, list of detector pairs with a live one (others may be absent or dead), plate motion, mission, partition into chunks, rotation, number of ranks", "why_tests_cant": "no test runs a scan with filters; one short stretch anywhere in a mission decides, and the statement compares all skies and detectors", "anchors": ["beamconv/instrument.py: ScanStrategy.scan_instrument_mpi, bin_tod, partition_mission, subpart_chunk", "beamconv/tools.py: filter_tod_hwp, filter_ft_hwp, filter_tod_highpass"]}
{"id": "C155", "title": "White noise in the timelines becomes the least possible noise in the solved map, with a known covariance", "statement": "If white noise (mean zero, the same variance for all samples, no correlations; any distribution) is added to the timelines that are binned, then solve_for_map returns, in every pixel that is seen under at least three angles, Stokes parameters without bias, whose covariance is the variance of the noise times the inverse of the matrix that was binned for this pixel, whatever the sky. No other linear combination of the samples that recovers a Stokes parameter of the pixel for all skies has a smaller variance. Further samples, of other detectors or later days, never make a solved pixel noisier. The variance of the temperature of a pixel is at least that of one sample divided by the hits of the pixel, those of Q and U together at least four times as large, and both are reached, without correlations, if the angles under which the pixel is seen are balanced. No Stokes parameter has a variance above the returned condition number times the variance of one sample divided by the hits. Noise of any other kind with mean zero does not bias the map either; but as all samples count the same, the map is not the best estimate if some detectors are noisier than others.", "quantifier": "every probability space and white noise on it, sky and timeline, number of observations, set of pointings and angles (unit vectors), pixel seen under at least three angles, every linear combination of samples that recovers the parameter", "why_tests_cant": "a statement about expectation values over all distributions and about all competing estimators; a test can only average a few realisations of one noise", "anchors": ["beamconv/instrument.py: ScanStrategy.bin_tod, solve_for_map, scan_instrument_mpi"]}
{"id": "C156", "title": "Null tests: maps of the same sky from different data differ by noise only", "statement": "Two scans of the same sky by ideal detectors with the same symmetric beam may differ in mission, chunks, pointing, boresight rotation, half-wave plate motion, detectors and number of ranks: in every pixel that both see under at least three angles, solve_for_map returns the same Stokes parameters, so that the difference of the maps is zero. If white noise is added to the samples, the difference has mean zero whatever the sky, and its covariance is the variance of the noise times the sum of the inverse binned matrices of the two maps.", "quantifier": "every sky, symmetric beam, pair of missions, chunks, pointings, plates, rotations, sets of detectors and numbers of ranks; every white noise on every probability space; every pixel seen under three angles in both", "why_tests_cant": "a test compares one split of one mission; the statement is about all splits, skies and noise distributions", "anchors": ["beamconv/instrument.py: ScanStrategy.scan_instrument_mpi, bin_tod, solve_for_map"]}
