# Formal model of waymo-open-dataset: design

## Technique

The model is a set of total Lean 4 functions over `List`, `Nat`, `Int`, `Rat`, `Real`, `Option` and plain structures, one Lean
definition per function of the repository.  Every definition cites the file and lines it models.  A C++ `CHECK`/`LOG(FATAL)`, a Python
exception, or an out-of-range index is a value (`Option.none` or an error constructor), so "never fails" is a theorem and not an
artefact of a default value.

* `lean/Verif/Model/*.lean`: the definitions, nothing else.
* `lean/Verif/Lemmas/*.lean`: helper lemmas.
* `lean/Verif/Props/*.lean`: the property theorems with their own specification vocabulary.  Beside the theorems there is a concrete
  non-trivial case that meets the hypotheses (an `example` or a theorem ending in `_case`/`_example`).

If the code violates a property, the negation is proved on a concrete witness (a theorem whose name ends in `_violated`), the
strongest true part is kept as a `_partial` theorem, the status is `partial`, and the disagreement is listed at the end of this file.

Mutation testing: realistic bugs are put into a copy of the model, one at a time, and the project is rebuilt; a bug that breaks no
theorem makes us tighten one.  `seeded/LOG.jsonl` has one line per attempt.

## Trusted base

* Lean 4.33.0's kernel.
* Axioms: every theorem depends at most on `propext`, `Classical.choice` and `Quot.sound` (checked with `#print axioms` on all theorems
  named in MANIFEST.json; those over `List`/`Nat` only often need fewer).  No axioms of our own, no `sorry`, no `native_decide`, no
  `bv_decide`.
* The faithfulness of the hand translation from C++/Python to Lean.  The definitions cite the lines.  The code was not run.
* Mathlib definitions used in statements (`List.Perm`, `List.Nodup`, `Real.cos`, `convexHull`, ...).
* The documented behaviour of the libraries that the code calls, where a definition says so: TensorFlow and NumPy on lists of numbers,
  pandas' `merge`, SciPy's `linear_sum_assignment` (a parameter with its specification), zlib, PNG and protobuf as lossless.

### Simplifications that hold throughout

* Floating point numbers are exact rationals (`ℚ`), reals (`ℝ`) or elements of an ordered field; rounding, NaN and infinities are not
  modelled unless a definition says so (NaN is `none` in the kinematics, interaction and metric models; narrowing to binary32 is
  modelled in the delta encoder).
* Machine integers are `Int`/`Nat`.  Where overflow matters it is a theorem (label bounds in the Hungarian solver) or an explicit
  modulus (panoptic labels, merged segmentation counts, packed range features).
* Protobuf serialisation, zlib, PNG, TensorFlow/NumPy/pandas/pyarrow kernels are not modelled; their documented semantics on lists are.
* Tensors are nested lists or index functions with a shape; batch dimensions that only repeat the computation are left out.

## Properties

The model file is `lean/Verif/Model/<Namespace>.lean` for theorems in `Verif.<Namespace>` unless the head of the theorem's file says otherwise.
The full theorem lists are in MANIFEST.json, the full statements in properties.jsonl.

| id | property | status | main theorem | how it is proved | limits |
|---|---|---|---|---|---|
| C01 | Range-image delta compression is lossless on the quantisation grid | proved | `DeltaEncoder.decompress_compress` | induction on the mask and the list of residuals; rounding lemmas | floats are exact rationals; the stored precision is narrowed to binary32 as in the proto |
| C02 | Run-length coding of the validity mask is exactly invertible | proved | `DeltaEncoder.rle_roundtrip` | induction on the mask and the list of residuals; rounding lemmas |  |
| C03 | Compression accepts exactly the documented precisions and sizes | proved | `DeltaEncoder.compress_accepts_iff` | case analysis of the argument checks, both directions | an image without cells raises IndexError rather than ValueError |
| C04 | Tiling a picture and combining the tiles gives back the picture | proved | `Tiling.combine_extract` | div/mod arithmetic on row-major indices | the number of tiles is computed exactly; the code goes through a float32 |
| C05 | Uniform quantisation in the embedding codec is accurate to half a step and clamps | proved | `Pca.quantize_int32` | inequalities on `round`/`floor` in an ordered field; matrix algebra | exact arithmetic in any ordered field with a floor |
| C06 | A component survives the trip through its table row | partial | `Component.roundTrip_full` | structural induction on class shapes; concrete objects for the negations | violated in general: a missing nested object comes back as an object of Nones (also in shipped classes), and equal field names at different depths can be confused; proved for every object without missing nested objects of every class without such names, in particular of every shipped class, with an exact criterion for classes |
| C07 | A component's schema lists exactly the columns its rows have | proved | `Component.toFlattenDict_spec` | structural induction on class shapes; concrete objects for the negations | a component whose key is None has other columns than its schema (schema_none_key_violated) |
| C08 | Merging two component tables is the relational join they document | proved | `Frame.merge_spec` | membership characterisation of the joined rows | pandas' merge and groupby are modelled from their documentation; row order of outer joins and groups and type casts are not |
| C09 | The assignment solver always finishes and returns an optimal assignment | proved | `Hungarian.hungarian_optimal` | loop invariant (feasible labels, tight matching, alternating tree), a decreasing measure, LP duality for optimality | weights in [0,W] with 2W representable in the int weight type; n = 0 is refused by the code |
| C10 | Hungarian matching of predictions to ground truths is a consistent, optimal, thresholded one-to-one matching | proved | `Matcher.hungarianMatch_optimal` | on top of C09; the cache invariant by induction over histories of calls | also covers the LET matcher; equal types need a positive threshold, the counterexample for a zero threshold is proved too |
| C11 | Score-first matching gives each prediction, in score order, its best remaining ground truth | partial | `Matcher.scoreFirstMatch_partial` | on top of C09; the cache invariant by induction over histories of calls | false of the code for proper subsets: matcher.cc:283-285 looks the weight up at subset positions; proved for full subsets, and the matching is consistent for all |
| C12 | IoU caching never changes an answer | proved | `Matcher.history_outputs` | on top of C09; the cache invariant by induction over histories of calls | setters of custom functions keep the caches; that limit is a theorem |
| C13 | Tracking evaluation never invents or loses objects | proved | `Mot.run_explained` | invariant by induction over histories of frames, for every iteration order of the hash maps | for every iteration order of the hash maps and every matcher that returns consistent partial maps; the Hungarian matcher is one (ofMatcher_usable) |
| C14 | Mismatches are identity switches and takeovers, relative to the whole history | proved | `Mot.run_explained` | invariant by induction over histories of frames, for every iteration order of the hash maps | mismatches field of Explains, with mem_held saying what is held after a history |
| C15 | Detection and tracking measurements can be accumulated in any order and grouping | proved | `Measure.detection_accumulates` | merging is a commutative monoid up to permutation; argmax lemmas | counters and shape; in exact arithmetic. The optional per-frame details are dropped when two shards of at least two frames are merged (details_sharding_violated) |
| C16 | Detection counts are consistent at every score cutoff | proved | `Detection.measure_spec` | counting lemmas over filtered lists | for every matcher that returns consistent partial maps; the Hungarian matcher is one (hungarianOn_ok) |
| C17 | Every breakdown puts each object into one valid shard | proved | `Breakdown.rangeShard_known` | case analysis of the generators; partition of index lists | cameras limited to the five of the dataset; other camera names abort |
| C18 | Subsets handed to the matcher are a partition of what the breakdown selects | proved | `Breakdown.shardSubsets_spec` | case analysis of the generators; partition of index lists |  |
| C19 | Score cutoffs are sorted, within range and cover the scores | proved | `Curve.score_cutoffs_ok` | sorting lemmas, induction on the curve; concrete counterexample for C21 | exact rationals instead of floats |
| C20 | Average precision is a number in [0,1], monotone in precision, independent of the order of the operating points | proved | `Curve.map_bounds` | sorting lemmas, induction on the curve; concrete counterexample for C21 | exact rationals instead of floats; the worked example in metrics_utils.h:114-116 is not what the code computes (documented_example_violated) |
| C21 | Tracking score cut-off estimation uses the predictions of the frame it is visiting | partial | `Curve.tracking_cutoffs_partial` | sorting lemmas, induction on the curve; concrete counterexample for C21 | false of the code: tracking_metrics.cc:306 takes the number of predictions from the scene with the number of the frame |
| C22 | Segmentation IoU accumulates and is bounded | partial | `Segmentation.computeIOU_spec` | induction over frames and shards; modular arithmetic for the overflow | Proved for all frames and shards while no class has 2^31 or more points; beyond that MergeResults narrows its counts to 32 bits, and merge_overflow_violated exhibits shards of IoU 0 merging to 1; merge_iff: exactly then. A point predicted to be of a class whose ground truth is outside the evaluated list counts for neither class, as the specification makes explicit. |
| C23 | Axis-aligned and heading-free IoU is symmetric, in [0,1] and 1 exactly on equal boxes | partial | `Iou.iou_aa2d` | ordered field arithmetic; measure-free: areas are products of interval lengths | Fully proved for axis-aligned boxes between 1 cm and 1000 km; for rotated 2D and upright 3D boxes proved from the assumption that the polygon routine returns the area of the intersection (discharged in C95 and C96 for the code). Boxes outside of the size limits have IoU 0 even with themselves (iou_tiny_violated). |
| C24 | A validated motion-metrics configuration makes every later time index legal | partial | `Motion.validateConfig_ok` | decision logic with all error branches; sums over lists; minima over lists | false of the code: ValidateConfig accepts rates that are not multiples, zero and negative rates; proved for the others, of which the challenge configuration is one |
| C25 | Motion metrics are computed for every joint prediction of the scenario | partial | `Motion.computeMetricsStats_cases` | decision logic with all error branches; sums over lists; minima over lists | false of the code: motion_metrics.cc:752 returns at the first empty prediction; proved for inputs without one |
| C26 | Motion metric statistics can be accumulated in any order and grouping | proved | `Motion.Stats.accumulate_spec` | decision logic with all error branches; sums over lists; minima over lists | sums in exact arithmetic |
| C27 | At most one prediction per ground truth counts as true positive in motion mAP and mAP is in [0,1] | proved | `Motion.averagePrecision_spec` | decision logic with all error branches; sums over lists; minima over lists | exact arithmetic |
| C28 | minADE, minFDE and miss rate are attained minima and never get worse with more predictions | proved | `Motion.minDisplacement_spec` | decision logic with all error branches; sums over lists; minima over lists | exact arithmetic |
| C29 | The overlap metric reads the most likely trajectory, always within range | proved | `Motion.overlapRate_spec` | decision logic with all error branches; sums over lists; minima over lists | the area of the intersection of two polygons is a parameter here; see C97 for it |
| C30 | Modular arithmetic helpers return the representative in range | proved | `Angles.positiveModuloInt_spec` | floor arithmetic over ℤ and ℝ; uniqueness of the representative | integers with the bounds of their type, floating point as exact reals |
| C31 | Heading accuracy is in [0,1], symmetric and insensitive to full turns | proved | `Angles.headingAccuracy_of_diff` | floor arithmetic over ℤ and ℝ; uniqueness of the representative | over exact reals |
| C32 | Pose matching never uses an object twice | proved | `Pose.matchingIds_spec` | index set reasoning; optimality from the property of the assignment solver; planar rotations | SciPy's linear_sum_assignment is a parameter with its documented property, which is shown to be satisfiable; false above the stated threshold, where the placeholder for pairs that are no candidates is accepted |
| C33 | Re-ordering objects for pose metrics accounts for every visible object exactly once | proved | `Pose.reorder_spec` | index set reasoning; optimality from the property of the assignment solver; planar rotations | for every association, not only those of the official matcher |
| C34 | Pose estimation error is bounded and classifies key points correctly | proved | `Pose.pointError_matched` | index set reasoning; optimality from the property of the assignment solver; planar rotations | real arithmetic |
| C35 | Box membership and box displacement agree | partial | `Pose.boxDisplacement_spec` | index set reasoning; optimality from the property of the assignment solver; planar rotations | false of turned boxes: the key point metrics use the opposite heading; proved for exactly the boxes for which it holds (boxDisplacement_within_iff): headings that are multiples of 90 degrees, and square ones at 45 degrees, and the displacement is proved to be the shortest one into the box with the opposite heading |
| C36 | Rater trajectories are padded and truncated without losing alignment | proved | `Rater.padTo_spec` | list induction, ordered field arithmetic |  |
| C37 | The rater feedback score is bounded, has a floor and rewards closeness | partial | `Rater.score_spec` | list induction, ordered field arithmetic | everything but the last clause is proved; a closer prediction can score less, because the floor is given only outside the trust regions: with a label of 0, a perfect match scores 0 and a prediction 100 m away scores 4; proved when no trust region is entered or no label is below the floor |
| C38 | Panoptic labels encode and decode losslessly | proved | `Panoptic.decode_encode` | div/mod arithmetic; invariant over the sequence of frames | labels beyond 32 bits are lost silently (decode_encode_violated), which the statement excludes |
| C39 | Global instance ids of different sequences never collide | partial | `Panoptic.remap_domain` | div/mod arithmetic; invariant over the sequence of frames | proved for exactly the ids for which it holds (remap_injective_iff): zero may be used only in the sequence of the first frame that is looked at; an id of 0 collides with the largest id of the sequence before (remap_injective_violated), and a component without instances cannot be remapped |
| C40 | Multi-frame panoptic decoding preserves the semantic class and keeps instances distinct | partial | `Panoptic.multi_plain` | div/mod arithmetic; invariant over the sequence of frames | false of the code: the divisor is raised to the largest id instead of one above it, the error for a divisor that is too small looks at the ids before remapping, and ids of more than 16 bits are cut; proved when the remapped ids are below the divisor and fit |
| C41 | Saving panoptic labels and decoding them returns the labels | partial | `Panoptic.save_decode_partial` | div/mod arithmetic; invariant over the sequence of frames | proved when the instance labels are below the stored divisor; otherwise the semantic class changes (save_decode_violated), because of the divisor of C40 |
| C42 | Packed lidar features decode to the encoded features, sort by range, and pixels keep the features of their nearest point | partial | `RangeImage.encodeGrid_iff` | bit arithmetic, floor/round arithmetic, minima over segments, atan2 in polar coordinates | all but the pixels is proved; a pixel with two points of the same quantised range mixes their features (buildFeatures_mixed_violated), proved when the nearest point is the only one of its quantised range |
| C43 | Scatter with pooling puts the pooled value of all points of a cell into that cell and zero elsewhere | proved | `RangeImage.scatter_spec` | bit arithmetic, floor/round arithmetic, minima over segments, atan2 in polar coordinates | a column outside of the image silently lands in the next row (scatter_outside_violated) |
| C44 | A point measured at a range-image pixel is projected back into that pixel | partial | `RangeImage.project_extract` | bit arithmetic, floor/round arithmetic, minima over segments, atan2 in polar coordinates | the round trip is proved; a point whose corrected azimuth is exactly -pi fails an assertion if the width is even (project_behind_violated), all others get a pixel |
| C45 | Cropping a range image returns the central window shifted as requested | proved | `RangeImage.crop_iff` | bit arithmetic, floor/round arithmetic, minima over segments, atan2 in polar coordinates | an image of the width requested is returned also with an invalid shift |
| C46 | Gathering objects by id returns exactly the requested objects in the requested order | proved | `SimAgents.argGather_iff` | list reasoning (`mapM`, gather), both directions |  |
| C47 | A validated joint scene simulates each required object exactly once with complete trajectories | partial | `SimAgents.simAgentIds_spec` | list reasoning (`mapM`, gather), both directions | proved up to repetition: a joint scene that simulates an object twice passes the validation (validateScene_twice_violated); box sizes are not checked |
| C48 | Converting a logged scenario to a joint scene gives a valid submission that reproduces the log | partial | `SimAgents.fromScenario_iff` | list reasoning (`mapM`, gather), both directions | the submission is proved valid, and positions, headings, validity, ids and types are those of the log; the box sizes after the current step are those of the current step (roundTrip_size_violated) |
| C49 | Traffic-light evaluation picks the nearest lane segment | partial | `Road.nearestSegment_partial` | first-argmin characterisation; convexity of the signed distance; case analysis over segments | fails: the closest point has the wrong sign in the formula (nearestSegment_violated) and a segment from the end of a short lane to the zero padding counts as valid (nearestSegment_padding_violated); proved for lanes of equal length up to an error that is zero for a segment starting in front of the point |
| C50 | Time to collision does not depend on how a heading is written | partial | `Interaction.ttcStep_range` | first-argmin characterisation; extremal points of a rotated rectangle | the range is proved; the value is proved to be the gap over the closing speed for the nearest followed object; a full turn in a heading changes the result since the difference of headings is not reduced (ttcStep_turns_violated), and does not if the differences are at most half a turn |
| C51 | The signed distance to a road edge depends only on the road edges near the point | partial | `Road.edgeDistance_partial` | first-argmin characterisation; convexity of the signed distance; case analysis over segments | fails for closed polylines, whose first and last segment are separated by the padding (edgeDistance_extra_violated); edgeDistance_spec says what the distance is for all road edges, and edgeDistance_extra_iff exactly when a further one changes it |
| C52 | Kinematic validity marks exactly the steps whose finite differences use only valid steps | proved | `Kinematics.speedValid_iff` | index arithmetic of central differences; wrap-around uniqueness | for fewer than two steps the results have two steps (validity_short_violated); the metrics apply the mask to the log after the history has been cut off |
| C53 | Distance to the nearest object excludes the object itself and invalid objects | proved | `Interaction.nearest_spec` | zonotope description of the Minkowski difference; nearest point by supporting lines (KKT); inflating a signed distance by a disc | with no other valid object, exact arithmetic gives the large constant minus the smaller side of the box, which 32 bit floats round to the constant |
| C54 | Likelihood estimates are probabilities and do not mix agents or steps | proved | `Estimators.histogramEstimate_spec` | telescoping of histogram bins; Gaussian kernel bounds; row-major reshape lemmas | finite samples and a positive pseudocount; without a pseudocount an empty bin scores minus infinity (histScore_empty); the NaN handling of tfp is not modelled |
| C55 | The realism meta-metric is a weighted average in [0,1] and aggregation over scenarios is the mean | proved | `SimMetrics.metametric_mem` | convex combinations; geometric means; case analysis of buckets | a field that is not set in the first message is dropped from the aggregation (aggregate_first_violated); scenario messages produced by this library set all fields |
| C56 | Rigid transforms compose and invert, and box membership is invariant under them | proved | `Boxes.transformPoint_spec` | 4×4 matrix algebra over ℝ | real arithmetic; boxes are upright: transform_box does not keep membership when the frames differ by pitch or roll |
| C57 | Compressing an image leaves the caller's array unchanged | partial | `DeltaEncoder.compress_overwrites_input` | evaluation of the model of the in-place update | false of the code: the array passed in is overwritten with the rounded values (delta_encoder.py:63-67) |
| C58 | The details of a tracking measurement list exactly the objects that were counted | partial | `Mot.details_lengths_partial` | invariant by induction over histories of frames, for every iteration order of the hash maps | false of the code: unmatched predictions in no-label zones and ground truths above the level are listed but not counted |
| C59 | The reported tracking accuracy is the best over the score cutoffs and consistent with its parts | partial | `Measure.tracking_metrics_best_partial` | merging is a commutative monoid up to permutation; argmax lemmas | false of the code when no cutoff has positive accuracy: everything but the object count is reported as 0; tracking_metrics_best_iff: exactly then |
| C60 | Every change of the prediction id of a ground truth is counted as a mismatch, and nothing else is | partial | `Mot.switches_counted_partial` | invariant by induction over histories of frames, for every iteration order of the hash maps | false of the code once a prediction id moves between ground truths; proved when it does not |
| C61 | Pairs below the minimum heading accuracy are treated as false matches | partial | `Detection.low_heading_is_false_match_violated` | counting lemmas over filtered lists | false of the code: detection_metrics.cc:73 skips the pair, so both objects vanish from all counts; low_heading_vanishes says exactly how: FPs and FNs stay as they are, TPs lose these pairs |
| C62 | Breakdown names of the C++ and the Python code agree and identify a breakdown | proved | `Breakdown.breakdownNames_eq` | case analysis of the generators; partition of index lists |  |
| C63 | A ground truth takes part in the matching of its own shard | partial | `Breakdown.own_shard_matched_velocity` | case analysis of the generators; partition of index lists | false of the camera breakdown: the shard follows most_visible_camera_name, the matching shards only the position; own_shard_matched_camera_iff says exactly for which objects it holds |
| C64 | Quantisation factors from buckets give codes within the number of buckets | partial | `Pca.bucketed_codes_partial` | inequalities on `round`/`floor` in an ordered field; matrix algebra | proved for every column with a non-zero value; for a column of zeros the factor is 0 |
| C65 | Decoding an encoded embedding image gives the image up to the quantisation error | proved | `Pca.decode_encode` | inequalities on `round`/`floor` in an ordered field; matrix algebra | exact arithmetic; for fit_pca see C228 |
| C66 | A component can be read from a merged row | proved | `Component.Shipped.fromDict_merged` | structural induction on class shapes; concrete objects for the negations | missing nested objects come back as objects of Nones, see C06 |
| C67 | Axis-aligned boxes behave as sets of points and the box tree finds exactly the overlapping boxes | proved | `AABox.overlap_iff` | induction over the construction and traversal of the tree | Building a tree without boxes reads outside of a vector (build_empty). |
| C68 | Longitudinal affinity measures only range error and alignment moves a prediction to the nearest point of its line of sight | proved | `Iou.affinity_spec` | ordered field arithmetic; measure-free: areas are products of interval lengths | Centre alignment does not move the height, contrary to its documentation (centerAligned_violated). |
| C69 | Motion metrics do not depend on the world frame | partial | `Motion.minDisplacement_moved` | rotations of the plane as ring identities with sin²+cos²=1 | false of the overlap of a predicted object that does not move: its heading is taken to be zero in every frame; everything else is proved; the overlap test is that of the polygon routine, for boxes with sizes |
| C70 | The shape of a ground truth trajectory is classified as documented and mirrors swap left and right | proved | `Motion.classify_spec` | rotations of the plane as ring identities with sin²+cos²=1 | real arithmetic |
| C71 | Box sizes reach the key point metrics on the right axes | partial | `Pose.laserSize_partial` | index set reasoning; optimality from the property of the assignment solver; planar rotations | false of boxes converted from a Box3d, whose width and length are swapped; proved for label boxes |
| C72 | The association of poses is optimal | partial | `Pose.meanErrorMatching_partial` | index set reasoning; optimality from the property of the assignment solver; planar rotations | false as documented; the association minimises the sum of the mean errors of its pairs plus the penalty for each ground truth left alone |
| C73 | Key point similarity is a score between 0 and 1 | proved | `Pose.oks_bounds` | index set reasoning; optimality from the property of the assignment solver; planar rotations | real arithmetic; a box without volume gives similarity 1 to every prediction |
| C74 | Associated poses are close to each other | proved | `Pose.matchingIds_near` | index set reasoning; optimality from the property of the assignment solver; planar rotations | the box is taken with the opposite heading (C35) |
| C75 | A camera depth image has the distance of the nearest lidar point in every pixel | proved | `RangeImage.depthImage_spec` | bit arithmetic, floor/round arithmetic, minima over segments, atan2 in polar coordinates | real arithmetic |
| C76 | Uniform inclinations are the centres of equal parts of the range | proved | `RangeImage.inclinations_spec` | bit arithmetic, floor/round arithmetic, minima over segments, atan2 in polar coordinates | real arithmetic |
| C77 | A red light violation is reported exactly when a valid object passes the stop point of a stop signal of its lane | partial | `Road.redLight_spec` | first-argmin characterisation; convexity of the signed distance; case analysis over segments | the rule of the code is proved exactly; it fails the property since the step before need not be valid (redLight_invalid_violated) and the lane is found by the wrong distance (C49) |
| C78 | The distance to the road edge has the size of the distance to the road edges, and a sign by the side | partial | `Road.edgeDistance_convex_partial` | first-argmin characterisation; convexity of the signed distance; case analysis over segments | proved for closed convex road edges everywhere, and for the side of the nearest segment in general; fails on the extension of a road edge beyond its end, where the distance is 0 (edgeDistance_extension_violated) |
| C79 | Speeds and rates of turning do not depend on how headings are written and recover steady motion | proved | `Kinematics.turn_turns` | index arithmetic of central differences; wrap-around uniqueness | real arithmetic |
| C80 | The metrics of a scenario are likelihoods in (0, 1] | partial | `SimMetrics.sumScores_cases` | convex combinations; geometric means; case analysis of buckets | proved when some object has three valid steps two apart and some evaluated vehicle a valid step; without a valid vehicle the time to collision likelihood and the meta-metric are NaN (compute_vehicle_violated) |
| C81 | The average displacement error is the mean distance to the log over the valid simulated steps | partial | `Kinematics.averageDisplacement_spec` | index arithmetic of central differences; wrap-around uniqueness | zero exactly for agreement is proved; the mean is taken over the history too, where the error is zero by construction, so that the value is too small by the share of valid steps in the future |
| C82 | The distance of two objects is the distance of their boxes with rounded corners | proved | `Interaction.pairDistance_spec` | zonotope description of the Minkowski difference; nearest point by supporting lines (KKT); inflating a signed distance by a disc | rounding factor below 1 and positive sizes; the documented factor 1 gives NaN edges |
| C83 | An occupancy grid shows the boxes of the agents: no cell too many, none too few | partial | `Occupancy.renderOccupancy_spec` | exact characterisation of the scattered cells; nearest sample by rounding; rotation invariance of the local pose | boxes are filled if the diagonal between samples is shorter than a cell; with the default configuration a vehicle of 20 metres has holes (box_occupied_violated); an agent seen in the past but not now counts as observed, contrary to the documentation (observed_violated) |
| C84 | The flow of a cell is the mean backward displacement of what is in it | proved | `Occupancy.renderFlow_spec` | exact characterisation of the scattered displacements as a list, means between extremes |  |
| C85 | Way points show the documented steps and chain together | partial | `Occupancy.waypointGrids_spec` | index arithmetic of slices; equality of renderings of different time ranges; induction over the trail | accumulated flow averages the two directions separately over their non-zero values and is not the mean of the flows (flowAt_mean_violated) |
| C86 | The occupancy and flow metrics are normalised and only count way points with ground truth | partial | `Occupancy.softIou_spec` | induction over grids; filtering of way points | as shipped the function raises NotImplementedError for every input with a way point, since flow warping is left out of the open source version (metrics_violated); the rest is proved for the computation around it, with the area under the curve and the warped grids as parameters |
| C87 | The road graph of a converted example has a fixed size and holds the most important samples | proved | `Conversion.conversion_road` | induction over the features with the number of samples so far; truncated concatenation | source spacing positive and polygons with vertices, see C93 |
| C88 | Resampled polylines follow the curve through the map's points | proved | `Conversion.featureSamples_spec` | the loop gives the points of the curve in order; polynomial identities; derivatives; affine invariance |  |
| C89 | Sampled polygons are closed and no gap is wide | partial | `Conversion.polygonSamples_spec` | induction over the sides | the gaps of a side are even and below twice the spacing, but not the spacing: the number of samples is rounded down (polygon_spacing_violated) |
| C90 | The state tensors of a converted example hold the states of its agents at their steps | partial | `Conversion.conversion_agents` | log of additions filtered by key; blocks of equal size | time stamps can be a microsecond short, since they pass a 32 bit float and are cut (micros_violated) |
| C91 | The agents of a converted example are the ones to predict and then the most relevant others | partial | `Conversion.conversion_agents` | invariant of the loop over the listed tracks; any sort that returns an ordered permutation under a strict weak order | the vehicle itself is included if it is valid now, alone at its place and there is room (sdc_included_partial); otherwise it may be left out (conversion_sdc_violated) |
| C92 | The traffic light tensors of a converted example hold the recorded lights | partial | `Conversion.conversion_lights` | log of additions filtered by key; blocks of equal size; floats by an arbitrary rounding | ids above 2^24 are rounded, because a conditional expression makes them floats (light_id_violated); the padding counter falls when there are too many lights (light_counters_violated) |
| C93 | The conversion of a scenario never crashes and fails only for the documented reasons | partial | `Conversion.conversion_outcome_partial` | totality of every step; exact condition of success | proved for the scenarios and configurations that meet what the code takes for granted; each of the other theorems shows a crash of a scenario that passes the validation |
| C94 | The area of the intersection of two convex polygons is exact | partial | `Polygon.convex_intersection_partial` | the chase of two convex outlines as a walk on direction angles; invariant of the loop, winding, area as sum of cross products | proved for polygons in general position (no vertex of one on the outline of the other); the statement fails for sides that overlap in opposite directions (iou_opposite_violated); other degenerate positions are covered only for boxes whose headings differ by right angles (C96, C222) |
| C95 | The IoU of rotated boxes is the ratio of the areas of their sets of points | partial | `Iou.polygonArea_eq` | C94 for the corners of boxes; measure of rotated rectangles | proved in general position; boxes with opposite headings that share a line can have computed IoU 0 although one contains the other, depending on the order (iou_opposite_violated, iou_symm_violated); all positions of boxes whose headings differ by right angles are decided in C96 and C222 |
| C96 | Boxes of the same heading have exact IoU, and a box has IoU 1 with itself | proved | `Iou.polygonArea_aligned` | invariance of the algorithm under order isomorphisms of the coordinates; kernel evaluation of all order types | all order types of the eight side coordinates are shown equivalent to 169 integer cases, which the kernel evaluates |
| C97 | The overlap test of the motion metrics finds exactly the overlapping boxes | partial | `Motion.boxesOverlap_partial` | from C94 to C96 | proved in general position and for equal headings; boxes of opposite headings can be missed (boxesOverlap_violated; C222 says exactly which) |
| C98 | PointInside decides membership in a convex polygon | proved | `Polygon.convex_inside` | invariant of the bisection; half planes of a convex ring |  |
| C99 | The intersection of two segments is found exactly | partial | `Polygon.segmentIntersection_spec_partial` | Cramer's rule; case split on the determinant | the first segment must not be a point; otherwise points off the second segment are reported (segmentIntersection_point_violated; segmentIntersection_point_iff says exactly which) |
| C100 | Moving a polygon moves its points and changes nothing else | proved | `Polygon.transform_build` | the moved polygon is the one built from moved points; affine image of the hull; determinant 1; for the intersection each step of the loop commutes with the motion, and polygons whose boxes do not meet have no common point | Whole property, over the real numbers, for convex polygons in any position. |
| C101 | IsConvexHull accepts exactly the outlines of convex polygons | partial | `Polygon.isConvexHull_convex` | monotone flags; witness of a spiral | convex outlines are accepted; accepted outlines turn to one side only and are convex if they have three or four points, but longer ones may wind around twice (isConvexHull_violated) |
| C102 | The lazily cached values of a segment cannot be observed | partial | `Segment.query_spec_partial` | invariant on the caches by induction over operations; invariant on memory and program counters by induction over schedules | the heading of a segment that is a point depends on whether it was asked for before a rotation (heading_history_violated); negative lengths are kept (length_negative_violated); the memory model is: relaxed loads return any value stored so far |
| C103 | Distances, intersections and samples of segments are those of the geometry | partial | `Segment.distSqrToPoint_spec` | minimisation of a quadratic; Cramer's rule; induction on the loop | short segments that cross are missed when the cross product of their directions is below 1e-10 (intersect_violated; intersect_common_iff: exactly then); MightIntersect rejects some segments for which Intersect finds a point within its tolerance (mightIntersect_violated) |
| C104 | A box has the corners, the size and the heading it was made from, and they move with it | partial | `Segment.corners_spec` | trigonometric normal form of the corners | boxes of length zero lose the direction of their width (ofCorner_violated, setSize_violated); ofCorner_iff says exactly when the corner is kept |
| C105 | Exact numbers are added, subtracted and multiplied without rounding | partial | `ExactFloat.canonicalize_spec` | values in the rationals and a relation between representations and values; case analysis on signs and exponents | arithmetic is proved in full; the conversion from int is wrong for the least int, whose absolute value overflows (ofInt_violated) |
| C106 | Exact numbers are ordered like the numbers they stand for | proved | `ExactFloat.unsignedLess_spec` | the extended reals as specification; comparison of leading bits | over the extended reals: unordered NaN apart, < and == are those of the values |
| C107 | Rounding of exact numbers obeys the rounding mode | proved | `ExactFloat.roundToPowerOf2_spec` | remainders of division by powers of two, for each mode | Rounds specifies a mode; Rounds.unique: it selects one integer |
| C108 | Scaling, exponents and conversion to double are exact or nearest | partial | `ExactFloat.ldexp_spec_partial` | as C105 with integer logarithms; halves of even multiples | ldexp bounds the shift of a number above 1 at the wrong place and returns a wrong number instead of a smaller one (ldexp_violated; ldexp_wrong says which), and frexp follows for exponents above half the largest (frexp_violated); ToDouble rounds twice when the result is subnormal and the number has more than 53 bits (toDouble_violated) |
| C109 | The decimal string of an exact number denotes it up to the stated digits, and unique strings are unique | partial | `ExactFloat.decimal_error` | digits by induction on lists; a parser of decimal strings as specification; distance of numbers of equal precision against the error of the string | integers with more digits than asked for are not always rounded to the nearest: 26 with one digit is printed as 20 (decimal_violated); decimal_nearest_partial covers all numbers that are not integers and integers with enough digits; decimal_error bounds the error of all by one unit; uniqueness is proved in full |
| C110 | Directions and pixels correspond under the lens distortion of the camera | proved | `Camera.directionToImage_spec` | complex numbers for the plane; the iteration is a contraction (Banach) with explicit constants | Mild bounds the distortion coefficients so that the iteration contracts; the camera of the tests is mild up to a radius of 0.6 with factor 1/4 (frontCamera_mild) |
| C111 | Global shutter projection and back projection are inverse rigid geometry | proved | `Camera.worldOf_bijective` | orthogonal matrices; case analysis of the projection | every world point is worldOf of one point of the camera frame (worldOf_bijective) |
| C112 | Rolling shutter: each pixel has the time of its exposure, and the camera follows the motion of the vehicle | partial | `Camera.pixelTime_spec` | field arithmetic for times; derivatives of matrix functions and the turning of cross products | times in full; the motion holds for an angular velocity in the frame of the vehicle; dataset.proto documents the global frame, for which it fails (omega_frame_violated) |
| C113 | Rolling shutter projection finds the pixel at the time at which the point is seen | partial | `Camera.rolling_ok` | exact recursion of the error of the iteration for evenly moving points; invariants of the loop; counterexamples with rational numbers | the change of the depth enters the derivative with the wrong sign (jacobian_violated), so that a point in view can be reported as behind the camera (lost_point_violated) and outputs may stay unwritten (unwritten_violated); for cameras that do not turn the iteration converges under stated bounds on the motion (rolling_converges_partial); cameras that turn: validity, frame invariance and the error of the transpose (dcm_transpose) only |
| C114 | The camera operations on tensors project each row on its own | proved | `CameraOps.parse_encode` | induction on the rows | float_times_violated: with float32 tensors the times of an image coincide, since they are rounded to multiples of 128 seconds |
| C115 | Cross products near zero are computed with the exact sign in floating point arithmetic | partial | `AccSum.accSum_accurate` | floating point numbers as real numbers on grids of powers of two, any rounding to nearest; error-free extraction, induction over the list and over the passes | accSum_accurate: the sum, with its bound on the number of passes, for all inputs; the sign of the cross product is exact if the differences of coordinates are representable (cross_sign_partial), in particular for coordinates on a common grid of 52 bits (cross_sign_grid); it is false in general: the quick result is taken above a fixed threshold although differences were rounded (quick_sign_violated); overflow and underflow of the products are excluded by hypothesis |
| C116 | The metric operations evaluate exactly the rows of the tensors, grouped by frame id | proved | `Ops.parse_spec` | induction over the rows for maps as association lists; strictly sorted lists with the same elements are equal | all tensors; the maps are lists of entries, their order does not matter |
| C117 | The detection operation returns the metrics of the library for its frames, whatever the schedule of its threads | proved | `Ops.runPool_eq` | tasks that write different slots commute; outputs factor through breakdowns, cutoffs and counters; sums are invariant under permutations | frames_perm for frames on which the matcher and the generators keep their promises; the tasks of the pool are steps that run one after the other in any order, each writes its own slot |
| C118 | States of batches add up to the metrics of all rows | partial | `Ops.state_then_result` | linearity of the counters; frames of disjoint batches are a permutation of the frames of all rows; an empty frame contributes zero | states_accumulate_partial: for configurations with cutoffs and batches without a common frame; false if a frame is spread over two batches (split_frame_violated) or the cutoffs are to be estimated (estimated_cutoffs_violated); floats are exact, so that the limit of 2^24 for counters in 32 bit floats is not seen |
| C119 | The detection evaluators compute the metrics of exactly the batches since the last reset | partial | `Ops.evaluator_history_partial` | invariant of the state over histories; induction over the updates | evaluator_history_partial for histories in which every update has all required keys; an update that raises because of the ground truths has stored the predictions (failed_update_violated); speeds that only some batches have make the evaluation fail (mixed_speeds_violated) |
| C120 | The tracking evaluation of a scene is multi object tracking on each breakdown shard | proved | `Tracking.scene_spec` | the subsets of each frame are characterised shard by shard; the run of the tracker is reused from C13; merging is linear in the counters | for scenes on which each generator puts each object in a shard within its range, ids of ground truths are unique within a frame and the matcher returns a consistent matching; matchers of this kind are the subject of C10 and C11 |
| C121 | Predictions without a speed get that of the nearest ground truth in the velocity breakdown of tracking | partial | `Tracking.speed_rule_partial` | first minimum of a list by induction; case analysis on the first prediction; witnesses for both failures | true if all predictions have speeds, or none has and the first frame has a prediction; otherwise false: the code decides by the first prediction of the first frame |
| C122 | The tracking operation evaluates exactly the rows of the tensors, grouped by sequence and frame | proved | `OpsTracking.sequences_parse` | induction over the rows for nested association lists; strictly sorted lists with the same elements are equal | ids of sequences are any linear order; ids of objects are the numbers instead of their decimal strings |
| C123 | The tracking operation returns the metrics of the library for its sequences, whatever the schedule of its threads or the names of the sequences | partial | `OpsTracking.tracking_op_is_library` | tasks that write different slots commute; measurements are determined by shape and counters, and sums are invariant under permutations; induction over the updates | sequences_perm_partial: for configurations with cutoffs, and with the iteration orders of the hash containers moved along with the sequences; false if cutoffs are estimated (sequence_name_violated) |
| C124 | The difficulty given to the tracking operation decides at which levels a ground truth counts | partial | `OpsTracking.difficulty_ignored` | naturality of the grouping in the values; a witness for the failure | false of the code: the difficulty has no effect on any output (difficulty_ignored), because it is stored as the detection difficulty |
| C125 | The motion operation evaluates, for each scenario id, the agents with a valid step and the selected predictions | proved | `OpsMotion.dims_iff` | induction over the agents, the groups and the elements; the hash map as a function of the prefix of the batch | the last dimension of the trajectories is not checked; object types are values of the enumeration |
| C126 | The motion operation attributes each prediction to the agent it is for, and reads no memory outside of its tensors | partial | `OpsMotion.agent_partial` | the translation of indices is computed for every agent; witnesses for the failures | false of the code: predictions for agents without a valid step count for the first track (agent_violated), and object ids are used as column numbers (reads_violated) |
| C127 | The motion operation returns the metrics of the library for its scenarios, one row per object type and step, whatever the order of its batch, hash map and threads | proved | `OpsMotion.op_is_library` | tasks that write different slots commute; acceptance of the predictions; statistics denote a commutative monoid; the rows are a function of a map without double keys | scores are not negative and measured steps are less than the number of steps, as for C24 to C26 |
| C128 | The motion metrics of Python do not depend on how scenarios are spread over updates, with or without ids | partial | `OpsMotion.updates_order` | permutations of concatenations; decimal numbers are injective; witnesses for the failures | false of the code without scenario ids and more than one update (default_violated), and if a group has fewer agents than the ground truth (shapes_violated) |
| C129 | Matching a batch of boxes gives the best one-to-one pairs, element by element, in flattened indices | proved | `OpsMatch.matchOp_spec` | refinement of the caches, optimality of the Hungarian method per element, sums over the elements; positions and indices translated by the increasing list of valid boxes | the similarity is any function with values in [0, 1]; with a threshold of zero boxes that do not overlap are matched (zero_threshold_matches_apart) |
| C130 | Matching boxes works with every type of matcher that it offers | partial | `OpsMatch.kinds_partial` | the failing check is reached for every input; the Hungarian case by C129 | false of the code: the score-first matcher aborts on every non-empty batch (kinds_violated) |
| C131 | Each element of a batch of boxes is matched on its own, whatever the padding | proved | `OpsMatch.batch_elements` | equality of runs: the Hungarian method sees the same matrix |  |
| C132 | Writing a submission spreads the predictions over the shards without losing or repeating one | partial | `Submit.create_spec_partial` | round trip of the encoding (fields, varints, nested messages) by induction; the loop over predictions as a fold on one shard; partition of the positions by residues | false of the code for a file whose last byte is 10 without a line feed having been added (last_byte_violated) and for a file without predictions (no_predictions_violated); proved for all other files |
| C133 | Writing a submission leaves out exactly the predictions with low scores or boxes that are not numbers | partial | `Submit.kept_finite_partial` | case distinction on floating point numbers decoded from their bits | false of the code for scores that are not numbers, which are kept (nan_score_violated); proved for finite scores |
| C134 | The comparison reads a file of predictions and a submission as the predictions in them | partial | `Submit.read_objects` | the scan of a written message; unknown fields are skipped; computed for the witness | false of the code for submissions whose name happens to be the encoding of a message, such as PointPillar, which are read as if they were empty (read_submission_violated); the names with that effect are characterised |
| C135 | If the comparison succeeds, the detections of every frame agree | proved | `Submit.compare_sound` | invariant: the matcher stays usable between frames; the matching of C10; the count of unmatched detections is the larger side minus the good pairs | for thresholds above zero and IoUs in [0, 1]; the twentieth is compared exactly |
| C136 | The comparison accepts equal results | partial | `Submit.compare_complete_partial` | only equal detections can be matched, so the optimal total forces all pairs; computed for the witness | false of the code if boxes of a type in a frame overlap as much as the threshold (compare_complete_violated); proved otherwise |
| C137 | The comparison notices detections that the latency results lack | partial | `Submit.extra_detections_partial` | from C135; the empty file by evaluation | false of the code for frames without detections in the latency results, and for empty latency results (missing_detections_violated); proved for the other frames |
| C138 | A participant whose submission holds what the model returns passes the comparison | partial | `Submit.honest_accepted_partial` | composition of C132, C134 and C136; the failure from C137 | false of the code for extents below 0.01, which one program drops and the other keeps (honest_accepted_violated); proved for three-dimensional boxes with extents of at least 0.01 that can be told apart |
| C139 | The detection programs evaluate every frame once, with all its objects | proved | `Tools.detKey_iff` | Induction over the objects of the files (`group_spec`); keys are injective because decimal numbers have no underscore (`detKey_iff`); representatives of the sorted keys. | Whole property; the map from frames to objects is modelled as the list of its entries. |
| C140 | The detection programs evaluate exactly the visible ground truths with the documented difficulty | partial | `Tools.prepare_spec_partial` | Induction over the ground truths; case distinction per object. | Proved but for the last clause, which is false: a ground truth without camera is dropped, one without synchronised box is evaluated with an empty box at the origin. |
| C141 | The detection programs print each metric next to the name of its breakdown | partial | `Tools.detection_prints_partial` | The generators keep their promises on all objects (C17), so C20 applies to the frames; the table of names is computed by the kernel and equals the table of breakdowns for all inputs. The abort is proved through the subsets of C18. | Proved for files with at least one evaluated object and, for the camera only program, the five cameras of the breakdown. Without objects the program prints a mismatch; with camera UNKNOWN or a rear camera it aborts. |
| C142 | The tracking program evaluates each context as one scene in the order of time | proved | `Tools.scenes_spec` | Grouping by two keys (C122) and C120. | Whole property for files with at least one object. Objects of different cameras are in one frame, unlike in the detection program. |
| C143 | The segmentation program evaluates the points of all ground truth frames | partial | `Tools.segmentation_partial` | Invariant of the loop: the run of updates of the frames visited so far; the visited frames are a permutation of the ground truth frames; C22. | An equivalence, but for frames without prediction whose returns have different numbers of points, where the program aborts. |
| C144 | The two parameters of a ray and a box are where the ray enters and leaves the box | partial | `Rays.intersect_spec` | Each slab is an interval of parameters (`slab_iff`); intersection of three intervals; the direction that the code divides by is given by `bent`. | Exact if no component of the direction is zero. The code replaces zeros by 1e-10; then the result is exact for that direction, and for the given one up to 1e-10 of the distance. So a ray beside a face, nearer than that, is reported as a hit (parallel_violated). |
| C145 | Rays that miss the box have negative parameters | partial | `Rays.miss_negative_violated` | Witness; what holds follows from C144. | False: a ray that passes beside the box has positive parameters. Proved for rays that point away from the box; both_negative_iff says exactly when both are negative. |
| C146 | Rays that are parallel to a face are treated like others | partial | `Rays.parallel_violated` | Witnesses; the distance between the given and the bent ray is bounded. | False: a ray in the plane of one face is missed, in that of the opposite face is hit, and a ray just outside is hit; the error is bounded. |
| C147 | Coordinates of a box and of a frame: rays are moved rigidly | proved | `Rays.box_coordinates` | Matrix identities of the heading and of rigid poses; trigonometry. | Whole property, for poses that are rigid. |
| C148 | Parsing a frame gives the returns of each laser | partial | `Clouds.parse_spec` | Invariant of the loop over the lasers (`step_iff`, an equivalence for one laser); witnesses for the KeyErrors. | The contents are proved. The last sentence is false: a laser with only a second return, or with labels of the second return only, raises. |
| C149 | The point clouds of a frame have one point for each valid pixel, at the right place | proved | `Clouds.frame_clouds` | Dictionaries by `dict_get`; pixels in order are unique (`pixels_unique`); the matrix of the Euler angles, the beam and the inverse pose are written out in the specification. | Whole property; numbers are real numbers. |
| C150 | Every frame with calibrated lasers has point clouds | partial | `Clouds.clouds_exist_partial` | Totality of each step; the poses of TOP are needed before the loop. | False for frames without the first return of TOP, which have no clouds of any laser; proved for the others. |
| C151 | Version 2 gives the clouds of version 1 | proved | `Clouds.versions_agree` | Both versions reduce to the same tensor for each laser. | Whole property, for frames whose empty returns have no projections either. The converse is false, see C150. |
| C152 | The lidar points of the motion data set are those of the perception data set | partial | `Clouds.side_agrees` | Both reduce to the same tensor; points and features are zipped. | Proved but for the last clause: TOP without a list of inclinations raises. |
| C153 | Boxes of labels are extracted without loss, or with the documented error | partial | `Extract.laserBox_spec_partial` | Each extractor is characterised by an equivalence with a record of what the fields are; losslessness follows from the equivalences. | Proved but for the errors: fields that are missing are an AssertionError, and a camera of version 1 that version 2 does not have is a KeyError. |
| C154 | The id of a projected box gives the object and the camera | partial | `Extract.parseId_spec_partial` | Cases on the length of the id of the object; no name of a camera is a proper suffix of another or ends with an underscore and a name. | Proved for ids of 22 characters; other ids are a KeyError and never parsed as something else. The separator is not looked at. |
| C155 | Keypoints become columns, one row for each keypoint | proved | `Extract.keypoints_spec` | Induction on the list of keypoints with the columns so far; rows by extensionality. | Whole property; a label with an empty list of keypoints has a component with empty columns. |
| C156 | Components can be joined by their keys | proved | `Extract.laser_keys` | From the equivalences of C153 to C155. | Whole property, for labels with ids and for ids of projected boxes as in C154. |
| C157 | Images, calibrations, statistics, poses and segmentation are copied | partial | `Extract.cameraImage_spec` | Equivalences field by field; the loop over mappings by induction. | Proved but for the last sentence: numbers of the intrinsic after the ninth are lost and fewer than nine are an IndexError. |
| C158 | Each feature of a simulated scene belongs to the object and the step where it stands | proved | `SimFeatures.compute_spec` | The scene is rearranged to evaluated objects and rest (`compute_eq`, from gathering by id); then each step and row is read off, with the theorems about nearest objects, times and edges for a permuted scene. | Whole property, over the real numbers, for every scene that has features; the distance to the nearest object is characterised for boxes as in C45 and the distances to lanes and edges as in C46 and C47. |
| C159 | Features do not depend on the order in which other objects are listed | partial | `SimFeatures.compute_order_partial` | Features are functions of the multiset of the other objects but for the first minimum in the time to collision; ties with equal speed do not matter. The counterexample is a scene of three cars. | Proved for all features but the times to collision, and for these if objects nearest in front of an evaluated one do not tie with different speeds; a scene with a tie has a time of 1.86 s in one order and 5 s in the other. |
| C160 | Which scenes have features | partial | `SimFeatures.compute_iff_partial` | Every part of the computation is some under the conditions, and each condition is necessary. | Which scenes have features is proved as an equivalence. Maps without a road edge of two points have none, and neither have scenarios with a track to be predicted that is not valid at the current step. |
| C161 | Features of rollouts are those of their scenes | proved | `SimFeatures.rollouts_spec` | Equivalence by unfolding and stacking. | Whole property. |
| C162 | The log has no displacement error | proved | `SimFeatures.logged_error` | The log followed as a simulation is at its own positions; the mean over valid steps of zeros is zero. | Whole property; includes objects that are invalid in all scored steps. |
| C163 | The IoU of boxes does not depend on the frame | proved | `Iou.computeIoU_move` | The corners of a moved box are the moved corners; then C100; heights shift by the same number. | Whole property, over the real numbers; TYPE_AA_2D has no headings and is not meant to be invariant (computeIoU_move_aa). |
| C164 | Compressed camera rays are the rays | proved | `Assets.sample_spec` | Shapes and elements of the concatenation and of its parts; then the round trip of the codec in `Pca` for six channels. | Whole property; floats are exact elements of an ordered field. |
| C165 | Every complete component of camera rays can be encoded | partial | `Assets.decode_encode_partial` | Case analysis of every step that can fail; the reflection needs padding below the size; witness 12 by 4 pixels. | False for patches so small that the padding to whole tiles would need more than a reflection: those are refused. Proved for all others. |
| C166 | Camera segmentation evaluates every frame once with its labels and weights | proved | `CamSeg.augment_spec` | Induction over the frames, with the arrays indexed instead of zipped. | Whole property; the metric object of deeplab2 is a parameter. A pixel with coverage 0 has weight 1e8, as is shown too. |
| C167 | Camera segmentation metrics of videos can be aggregated in any order | proved | `CamSeg.aggregate_spec` | Amounts form a commutative monoid; induction over frames and videos; permutations of sums. | Whole property, for metric objects whose updates and merges add amounts (structure Adds, met by correct_adds); deeplab2 is not in the repository. |
| C168 | Comparing tf.Examples is an equality up to a tolerance | partial | `Examples.examplesEqual_iff` | Lookup in lists without duplicate names; features pointwise; triangle inequality; witnesses by evaluation. | False: integers compare as equal to a list of no floats, and not the other way round; an example with NaN differs from itself; a relative tolerance is taken of the second value. Proved otherwise. |
| C169 | Camera tokens are added and looked up exactly | partial | `Examples.addTokens_spec_partial` | Lists; minimum and maximum against the bounds of the codebook. | An empty list of tokens gives an error; all else is proved. |
| C170 | The dictionary of a frame has exactly the documented entries | partial | `FrameDict.toDict_spec_partial` | All 117 possible keys differ, by evaluation in the kernel; those of a frame are a part of them; so every entry stays. The points as in C149. | Contents and keys are proved for every frame that has a dictionary. Frames with a calibrated laser without second return have none, although the clouds of their first return exist. |
| C171 | The times in the dictionary of a frame are those of the messages | partial | `FrameDict.pose_timestamp_partial` | C170 and the error of rounding to float32; in [2^30, 2^31) the spacing is 128. | False for the time of the pose, which is rounded to float32: times of this decade are kept in steps of 128 s. The other times are kept; the error is bounded. |
| C172 | Labels of an object are grouped without loss | partial | `Wireframe.group_spec_partial` | Lists as dictionaries: the value of a key is the last one that is set; induction over the labels. | Contents are proved for all frames. False: an object without key points has an empty message of key points instead of none, without associated boxes the dictionary of cameras is None, and of two boxes in one camera only the last is kept. |
| C173 | A wireframe has a dot per key point and a line per edge whose points are known | partial | `Wireframe.wireframe_spec` | Dictionaries as in C172; case analysis of the three kinds of edges; the tables of the default settings by evaluation. | Contents are proved for all inputs. False for key points of the unspecified type, which raise, and for no key points, whose empty wireframe cannot be drawn. |
| C174 | Cropping an object keeps its key points on the same pixels | partial | `Wireframe.crop_pixel` | Floors; truncation towards zero and clipping of both ends per axis; witnesses by evaluation. | The pixel is the same for all key points that stay inside. False: the last row and column of the image and the partly covered last pixels of the box are cut, and a box beside the image gives almost the whole image. |
| C175 | Pictures of occupancy blend the classes over the road | partial | `FlowVis.occupancy_formula` | One layer at a time: alphas stay 1, each layer keeps [0, 1] and adds one unit of the constant against division by zero. | False for uncertain classes, whose color is darkened by their own opacity: a pixel that may hold a vehicle is darker than one that does. Proved: the formula that holds, up to 4e-7, the range, and the property for occupancies 0 and 1. |
| C176 | Pictures of flow show direction and relative speed | proved | `FlowVis.toHsv_shows` | Argument of complex numbers, floor, supremum of finitely many magnitudes; the color wheel in six parts, in pairs. | Whole property over real numbers; hsv_to_rgb is modelled as the kernel of TensorFlow computes it. |
| C177 | Plots of maps show every feature in the style of its type | partial | `Maps.plot_spec_partial` | Induction over the features; runs of points of one identifier by takeWhile and dropWhile. | False: solid double yellow lines are left out, stop signs are lines of one point and lanes are not wider since members of an enumeration are compared with numbers, and maps or polygons without points raise. Proved otherwise, for features with different identifiers. |
| C178 | Animations of simulated agents show the boxes of the current step | partial | `Maps.bboxPatch_covers` | Rotation matrices; each pass halves the list of patches; induction over the objects. | Boxes and steps are proved entirely; a road edge or line without points raises. |
| C179 | Submissions to the motion challenge become predictions without loss | partial | `Challenge.acceptable_example` | Induction over the submitted objects; acceptance as an iff, contents by cases on the three kinds. | False: an object without trajectories loses its id, a second conversion into the same result keeps the predictions of the first, and a prediction set with no joint prediction is valid. Proved: exactly what is accepted and what it becomes, and injectivity for objects with trajectories. |
| C180 | The share of correct key points counts key points within the threshold | partial | `PoseMetrics.pck_spec` | Each threshold has a running weighted mean; a fold over batches becomes a sum over objects and key points. | Values, range, monotonicity and independence of batches are proved; left out predictions do not count, so leaving out a wrong one raises the result. |
| C181 | Average precision at similarity thresholds is the mean of the precisions | partial | `PoseMetrics.ap_spec` | As C180 with one value per object; the mean over thresholds of a batch by exchange of sums. | False: the average precision is a mean over batches, not over objects; weights per object are refused although documented; precisions with weights depend on the batches. Proved: the values for all histories without weights, and all of it for one batch. |
| C182 | Precision and recall of visibility count key points | proved | `PoseMetrics.visibility_spec` | Three running sums; a fold over batches becomes a sum. | Whole property; weights as the metric receives them. |
| C183 | The combined key point metric reports every metric for every subset under its own name | partial | `PoseMetrics.combined_get` | Names end in a number without spaces, so the last space splits them; merged dictionaries have disjoint keys; selection of a subset restricts every object. | False: thresholds that agree in two digits overwrite each other, subsets outside the order of the key points are accepted and raise at the first object, and weights of key points are not selected with the subset. Proved otherwise without weights, for subsets with different names and thresholds with different printed forms; these cover the default configurations. |
| C184 | Pictures of segmentations show classes and instances | partial | `SegView.colorMap_spec` | Pixelwise reading of nested lookups; the stored green value is computed modulo 256 for every type of label; different colors by a coprimality argument. | False: green wraps instead of being cut off, instances whose numbers differ by twice the amount share a color, one instance may look like none, and pictures of width one lose a dimension or raise. Proved: every pixel of every other picture, and different colors of instances whose numbers are closer. |
| C185 | The frames loaded from a data set are labelled frames of one sequence | partial | `SegView.load_spec` | Induction over the data set with the frames collected so far. | False: the last frame may be of another sequence, k = 0 gives one frame, and a frame without images raises. Proved: exactly what is chosen, and the property for data sets of one sequence. |
| C186 | Tensors of poses describe the objects of a frame, key points and boxes alike | partial | `PoseTensors.create_spec` | Induction over the poses with the rows and boxes collected so far; the rest is reading mapped lists. | False: if only some predictions have boxes, boxes and key points of a row belong to different objects; objects of a frame without key points get rows; no types raises for any object. Proved: all key points, and the boxes if all or none of the objects have one. |
| C187 | The example submissions for images return all detections with a type, in pixels | partial | `LatencyExamples.translate_spec` | Reading of the selection; linear arithmetic on the boxes. | False: the TensorFlow example scales x by the height of the image and y by the width, the PyTorch example returns at most one detection and, with the corners in the order of torchvision, exchanges x and y; both raise without detections. Proved: selection and types, and the boxes of square images. |
| C188 | The example for several frames gives the points of all frames in the newest one | proved | `LatencyExamples.transform_spec` | Algebra of orthogonal matrices; membership in mapped and filtered lists. | Whole property over the real numbers; poses are rigid, and transform_scale shows that this is needed. |
| C189 | The example submissions for lidar give their network every valid point with its channels | proved | `LatencyExamples.processInputs_spec` | Reading of the five fields; the hyperbolic tangent is strictly increasing. | Whole property over the real numbers. |
| C190 | The outputs of the occupancy network are cut into way points without loss | proved | `OccTutorial.waypoint_spec` | Reading of the slices. | Whole property. |
| C191 | The occupancy loss of the tutorial is a mean cross entropy | proved | `OccTutorial.xe_spec` | Calculus of the logistic function by cases of the sign; sums over mapped lists. | Whole property over the real numbers. |
| C192 | The flow loss of the tutorial is the mean deviation where there is flow, of the batch being trained on | partial | `OccTutorial.flowLoss_spec` | Sums over filtered lists; concrete fields for the counterexamples. | False: the arguments of the flow loss are exchanged, so it is the deviation where the prediction is not zero and predicting no flow costs nothing; it divides by half of the cells; the training step uses the truth of a global variable. Proved: what the loss is, and that it is the intended one up to the factor where both flows vanish in the same cells. |
| C193 | The submission of occupancy and flow has one quantized prediction per test scenario | proved | `OccTutorial.roundHalfEvenR_abs` | Rounding half to even is within a half; induction over the shard. | Whole property over the real numbers. |
| C194 | The baseline of the sim agents tutorial extrapolates linearly with noise and gives 32 different futures | partial | `SimTutorial.after_linear` | Induction over the steps; algebra of the closed form. | False: the noise is scaled by the signed maximum of the velocities, which is zero if some agents stand and others move in negative directions; then all rollouts are the same. Proved: everything else, and diversity where the maximum is not zero. |
| C195 | The packaging of the sim agents tutorial makes submissions that pass the validation | proved | `SimTutorial.sceneOf_spec` | mapM over ranges against the zipped lists; the specification of the validation. | Whole property. |
| C196 | Stripping a scenario leaves only what may be used for generation | partial | `SimTutorial.strip_partial` | Equality of the tensors with those of blanked tracks; noninterference as a corollary. | False: the history that is kept is that of the first track; if this is not the autonomous vehicle, another agent's history leaks and its own is lost. Proved: nothing but the history of the first track leaks. |
| C197 | The scenario generation of the tutorial makes complete submissions around the autonomous vehicle | partial | `SimTutorial.numAgents_spec` | Stripped agents are the agents with blanked states; induction over the steps; the specification of the validation. | False: without a valid first track agents are placed around the origin; types are never written, though the evaluation reads them; sizes have as many steps as the log, 11 in the test set; types other than the three have no size. Proved: everything else. |
| C198 | The segmentation labels of points line up with the points | partial | `SemsegTutorial.toLabels_spec` | Forall2 over the lasers; reading of the mask. | False: only first returns have labels, asking for those of second returns raises. Proved: alignment wherever there is an answer, and an answer for first returns. |
| C199 | Arrays are packed and labels submitted without loss | proved | `SemsegTutorial.compress_round` | Round trips by the inverse of the compression; indices of kept pixels by induction over rows. | Whole property; zlib is a parameter that is undone by its inverse. |
| C200 | The frames chosen for a segmentation submission are those with labels, or those asked for | partial | `SemsegTutorial.validation_partial` | Filters; a concrete data set for the counterexamples. | False: frames are left out if the top laser is not the first; the list of frames of the test set is compared as a tuple with lists, so nothing is ever chosen. Proved: the choice for validation if the top laser is first. |
| C201 | The front pictures of the driving tutorial and the way points in them are those of the cameras | partial | `E2ETutorial.pick_partial` | Reading of the searches by camera; concrete frames for the counterexamples. | False: calibrations are taken by the position of the image; way points that are not visible are drawn in a corner. Proved: the right pictures, and the right calibrations if both lists have the same order; visible way points are drawn where they are. |
| C202 | The shards of the driving submission have every prediction once | proved | `E2ETutorial.shards_spec` | Consecutive slices joined by induction. | Whole property. |
| C203 | Displacements, speeds and ratings of the driving tutorial are those of the frame asked about | partial | `E2ETutorial.averageDistance_partial` | Sums over lists; concrete trajectories for the counterexamples. | False: trajectories of one way point are broadcast; with a single truth the sum is given rather than the mean; initial speeds are those of a global variable. Proved: everything else. |
| C204 | The camera-only submission has every predicted object once | proved | `CameraTutorial.makeObjects_spec` | mapM over a range; ids by uniqueness of decimal numerals; induction over the objects dealt. | Whole property. |
| C205 | The evaluation of the camera-only tutorial compares objects of one frame | partial | `CameraTutorial.parse_partial` | Maps of filtered lists. | False: frames are told apart by time only, so objects of different contexts are compared. Proved: everything else. |
| C206 | The boxes drawn into camera images are the parts of the projections that are visible | partial | `CameraTutorial.rectOf_spec` | Clipping is monotone, so it commutes with smallest and largest corners. | False: nothing is drawn if one corner cannot be projected, and edges that leave the image are bent rather than cut. Proved: the rectangles, if all corners can be projected, and the lines, if all corners are in the image. |
| C207 | The panoptic labels shown are those of the sequence and camera they are shown for | partial | `PvpsTutorial.collect_partial` | Induction over the frames with the frames found so far generalised; dictionaries by unique keys. | False: a frame of another sequence is collected; the label decoded as that of the front camera is that of the front left camera; a row is split by a global variable. Proved: everything else. |
| C208 | The panorama shows every label once, aligned at the bottom | proved | `PvpsTutorial.pad_spec` | Positions in flattened lists by sums of lengths. | Whole property. |
| C209 | The panoptic submission has one prediction per frame asked for and camera, and one file per context | partial | `PvpsTutorial.generate_spec` | Forall2 of the frames with their predictions, by induction; the ending is found only at the end as it has the only point. | False: a second run raises because the folder is not empty, and data with another ending give a submission with the name of the data. Proved: everything else, for names of contexts without points. |
| C210 | The pictures of the motion tutorial show every agent that is valid at the step shown | partial | `MotionTutorial.viewport_spec` | Folds for the smallest and largest positions; Forall2 of steps and pictures. | False: samples of the road that are not valid are drawn, and only the first half of the pictures is shown in the animation. Proved: everything else. |
| C211 | The loss of the motion tutorial is the mean error of what is to be predicted | partial | `MotionTutorial.loss_partial` | Sums over lists of terms that are not negative. | False: the sum of errors is divided by the number of all steps of all objects, and validity is not given to the network. Proved: the value of the loss and when it is zero. |
| C212 | The metrics shown after an epoch of the motion tutorial are those of the epoch | partial | `MotionTutorial.subsample_spec` | Induction over the epochs with the metrics so far generalised. | False: metrics are never reset, so those of later epochs have those of earlier ones; twice as many samples are reported as were seen. Proved: the steps evaluated and the metrics of the first epoch. |
| C213 | Key points are read from a frame and written to a submission without loss | partial | `AssetTutorial.laserData_partial` | Search from the end for types without repetition; maps and flattened lists. | False: a frame without key points raises, and occluded key points are submitted as visible. Proved: everything else. |
| C214 | Masks are drawn over the pixels they cover and mark the rays that meet the box | partial | `AssetTutorial.colorMask_spec` | Bounds of the mixture and of rounding; the intersection of C144 for rays. | False: a single image and grids of several rows and columns raise; the mask of rays is that of global variables. Proved: the colours, grids of one row, and masks of the rays that the variables hold. |
| C215 | The points shown for an object asset are those of its pixels | proved | `AssetTutorial.unproject_spec` | Induction over the pixels; the maps of boxes are inverse to each other. | Whole property. |
| C216 | Objects with key points are matched to the predictions by their boxes | partial | `BoxMatcher.matchingIds_partial` | Reduction to the theorem about the operation (C129) for the boxes as it reads them; the violation follows from the overlap of intervals. | False: the centers of boxes are given to an operation that expects their bottoms, so boxes are compared after moving each by half of its height, and boxes of different heights are not matched although their IoU is large; boxes without heading and the method by scores always raise. Proved: the optimum for boxes of one height, and what is optimised for others. |
| C217 | The map tutorial shows every point of every frame at its place in the map | partial | `LaserTutorial.trace_partial` | The theorem about the clouds of a frame (C149), row by row; a frame of two lasers as witness. | False: only the laser with the smallest name is shown, and the color is the range. Proved: the points of this laser, their places and the order of frames. |
| C218 | The motion lidar tutorial extracts the points of both returns of all lasers of every frame | partial | `LaserTutorial.allPoints_partial` | The agreement with the second version (C152) for each laser; induction over the lasers. | False: a frame without lasers or with a laser without calibration raises, and nothing is extracted. Proved: everything else, and when it does not raise. |
| C219 | The pictures of the tutorial show the labels given and the channels of the range image | partial | `LaserTutorial.camera_partial` | Filtering by unique names; pixels as in C149. | False: the labels given are ignored in favour of those of a global variable, and pixels without return look like those 75 metres away. Proved: everything else. |
| C220 | The tutorial shows the points that a camera sees, where it sees them, colored by distance | partial | `LaserTutorial.projected_partial` | Positions selected by a filter, by induction from the end; fractional parts. | False: points whose second projection is in the camera are missing. Proved: the points by their first projection, and the colors. |
| C221 | The tables of the second version's tutorial hold each image, object and frame once, with all that belongs to it | partial | `TablesTutorial.images_partial` | Composition of the theorems about merging and grouping (C08); a row of a grouped table is determined by its keys. Witnesses by evaluation of small tables. | False: images without boxes are missing; an object that two cameras see is counted twice; objects that no camera sees, and frames with only such, are missing unless they are made optional. Proved: one row per image with a box, per object and per frame, with everything that belongs to it, in order. |
| C222 | Boxes whose headings differ by right angles have exact IoU and overlap | partial | `Iou.polygonArea_turned` | The outline of the turned box is that of a box of the first heading from another corner; the 169 orders of the sides of C96 are evaluated by the kernel for each of the four corners, and transported to all real positions by the invariance of the algorithm. | False of one kind of position, which is found to have area 0: the second box is turned by two or three right angles, the left sides lie on one line, and the second box begins before the first and does not end before it. Every other position, with any contact, is proved exact; turned to the left by one right angle there is no exception. The theorem says for each position which of the two it is. |
| C223 | A motion prediction counts in the bucket of the leading shape and the leading object type | proved | `Motion.index_spec` | Induction over the trajectories of the first joint prediction; the shapes, their order and their buckets are a specification of their own, and the last valid state is characterised by what follows it. | Real arithmetic. That the evaluation of predictions of one point can fail at all is an error of the code: it reads the first vertex of an empty polygon. |
| C224 | The name of the breakdown an object is evaluated in describes the object | proved | `Breakdown.named_unique` | Names and bands are a specification of their own; the shard number is decomposed by division into type and band; bearings by the polar form of the complex argument. | Real arithmetic. That a laser label may be counted in a breakdown it is not matched in is C63. |
| C225 | Camera segmentation labels decode alike from messages and from components | partial | `PanopticV2.iterate_spec` | The message and the extracted component give frames that differ in one flag; the table of ids is compared by induction over the labels with the invariant that sequences seen with instances are keys. | Holds without remapping, and with it if every label without instances comes after one of its sequence that has some. A sequence without instances makes the components fail (decode_components_fails, decode_empty_violated); a label without instances that comes first in its sequence changes the order of the sequences and with it the ids (decode_order_violated). |
| C226 | The occupancy and flow grids read at a waypoint are those put there | proved | `Waypoints.pyIndex_iff` | Induction over the history of appended grids; the specification filters the history by type and field. | Grids are values of any type. |
| C227 | A configuration of the embedding codec that is saved is loaded as it was | proved | `CodecJson.value_write` | Mutual structural induction over JSON values: the recursive descent reader undoes the indented writer at every depth, with any text after it. | That Python reads each number as the one it wrote is a hypothesis (Numbers.Lawful); the lengths of the vectors are not compared by the code. |
| C228 | Fitted parameters of the embedding codec act like the fitted pipeline | proved | `PcaFit.columnScale_pos` | Sums over samples and features: the scaled samples have mean zero; Pythagoras for orthonormal axes; orthonormal rows of a square matrix are orthonormal columns. | Real arithmetic. How scikit-learn finds the principal axes is not modelled: they are an argument, orthonormal where the theorem says so. |

## What is modelled and what is not

Paths are relative to /repo/src/waymo_open_dataset.

| code | model | left out |
|---|---|---|
| utils/compression/delta_encoder.py | DeltaEncoder | zlib and protobuf (lossless) |
| utils/compression/tiling.py | Tiling, Tensor | float32 tile count |
| utils/compression/pca_codec.py | Pca | `fit_pca`: see PcaFit |
| v2/component.py, v2/column_types.py, v2/perception/*.py (class shapes) | Component, Shipped | methods of the components that decode images |
| v2/dataframe_utils.py | Frame | row order of outer joins and groups, `_cast_keys` |
| metrics/hungarian.cc | Hungarian | |
| metrics/matcher.{h,cc} | Matcher | output pointers that are null |
| metrics/mot.{h,cc} | Mot | |
| metrics/detection_metrics.cc, metrics/tracking_metrics.cc, metrics/metrics_utils.cc | Detection, Measure, Curve, Angles | logging |
| metrics/breakdown_generator.cc, metrics/config_util.cc:32-48, metrics/python/config_util_py.py:25-163 | Breakdown | reading configurations from text protos |
| metrics/segmentation_metrics.cc | Segmentation | |
| metrics/iou.cc | Iou | the polygon intersection is a parameter of the model, instantiated by Polygon in Props/PolygonBox |
| math/vec2d.h, math/segment2d.{h,cc}, math/box2d.{h,cc} | Segment | `DebugString`; comparison operators; rounding; atomics other than relaxed loads and stores of one cell |
| wdl_limited/camera/camera_model.{h,cc}, camera/ops/camera_model_ops.cc | Camera, CameraOps | rounding (only times as `float`); NaN; Eigen's isometries are a matrix and a vector; tensors are lists of rows |
| math/exactfloat.{h,cc} | ExactFloat, ExactFloatString | OpenSSL's big numbers are natural numbers; `DCHECK`; the transcendental stubs (`Unimplemented`); streams; `ceil(prec * log10(2))` is computed exactly |
| math/polygon2d.{h,cc}, corners of math/box2d.cc | Polygon | `CrossMaybeExact` is the exact product; rounding of the other operations |
| metrics/ops/detection_metrics_ops.cc, metrics/ops/utils.cc 40-163, metrics/python/{detection_metrics,wod_detection_evaluator}.py | Ops | protocol buffers are records; the thread pool runs whole tasks in any order; counters in the state are exact instead of 32 bit floats; TensorFlow variables are values |
| metrics/tracking_metrics.cc, metrics/metrics_utils.cc 356-410 | Tracking | protocol buffers are records; the generators, the matcher and the centre and speed of an object are parameters; distances are compared by their squares |
| metrics/ops/tracking_metrics_ops.cc, metrics/ops/utils.cc 177-266, metrics/python/tracking_metrics.py | OpsTracking | as for Ops; ids of sequences are any linear order, ids of objects are numbers |
| metrics/ops/motion_metrics_ops.cc, metrics/ops/utils.cc 268-423, metrics/config_util.cc 50-62, metrics/python/motion_metrics.py | OpsMotion | tensors are functions of indices; objects of interest are not kept, the positions read for them are |
| metrics/ops/matcher_ops.cc, metrics/python/matcher.py | OpsMatch | tensors are functions of positions; IoU and affinity are parameters; element types are not modelled |
| metrics/tools/create_submission.cc, latency/{wod_latency_evaluator,make_objects_file_from_latency_results}.py, latency/compare_objects_file_to_submission_main.cc | Submit, Wire | files are bytes and the protocol buffer encoding is modelled; the text format of the description, the clock and running the submitted model are not; IoU and the difference of scores are parameters; `0.05 * n` is exact |
| metrics/tools/compute_{detection,detection_let,tracking,segmentation}_metrics_main.cc | Tools | files are lists of messages or do not parse; decompression is a parameter; the matcher is given by its results; text of the messages and formatting of numbers are not modelled |
| v2/perception/utils/object_asset_utils.py | Rays | real numbers; batches are lists |
| utils/frame_utils.py 34-235, v2/perception/utils/lidar_utils.py 50-255, compat_v1/{lidar,context}.py, utils/womd_lidar_utils.py 63-216 | Clouds | real numbers; decompression and parsing of messages are parameters; dimensions are natural numbers |
| v2/perception/compat_v1/{box,keypoints,camera_image,context,segmentation,pose}.py, interfaces.py 77-81 | Extract | messages are records of optional fields, numbers are only copied; the conversion of components to tables is in other modules |
| wdl_limited/sim_agents_metrics/metric_features.py | SimFeatures | real numbers; the order of a set is a parameter; on scenes of complete simulations |
| v2/perception/utils/object_asset_codec.py; v2/perception/object_asset.py 31-81 | Assets | |
| wdl_limited/camera_segmentation/camera_segmentation_metrics.py (STQuality is a parameter) | CamSeg | |
| utils/example_utils.py, utils/womd_camera_utils.py | Examples | |
| utils/frame_utils.py 238-365 (decoding of JPEG is a parameter) | FrameDict | |
| utils/keypoint_draw.py, utils/keypoint_data.py 145-223 | Wireframe | calls of matplotlib and plotly |
| utils/occupancy_flow_vis.py | FlowVis | real numbers; one size for all tensors of a call; in float32 the hue of a tiny negative angle can be 1 |
| utils/plot_maps.py, utils/sim_agents/visualizations.py | Maps | layout of the figures; the animation calls its function in any order |
| metrics/motion_metrics_utils.cc 98-215 | Challenge | messages with the fields that are read |
| metrics/python/keypoint_metrics.py 251-277, 363-457, 588-1065 | PoseMetrics | real numbers; thresholds are rational and printed with two digits, ties to even; Keras layers are running weighted means |
| utils/camera_segmentation_utils.py 350-433, 505-538 | SegView | arrays are dimensions and entries; a frame is its first image |
| utils/keypoint_data.py 350-528, 568-629 | PoseTensors | real numbers; three coordinates |
| latency/examples: what goes into the networks and what is made of their detections | LatencyExamples | real numbers; the networks are not modelled |
| tutorial/tutorial_occupancy_flow.ipynb cells 34, 42, 45, 47, 48, 50, 75, 76 | OccTutorial | real numbers; the network is not modelled |
| tutorial/tutorial_sim_agents.ipynb cells 16, 20; tutorial_scenario_gen.ipynb cells 14, 15, 17, 21, 22 | SimTutorial | real numbers; random displacements are arbitrary functions |
| tutorial/tutorial_3d_semseg.ipynb cells 14, 21-25, 29 | SemsegTutorial | zlib is a parameter |
| tutorial/tutorial_vision_based_e2e_driving.ipynb cells 11, 15, 21, 24, 29, 31, 32, 34, 36 | E2ETutorial | real numbers; the projection is a parameter |
| tutorial/tutorial_camera_only.ipynb cells 8, 21, 23, 33, 36, 40 | CameraTutorial | real numbers; the projection is a parameter |
| tutorial/tutorial_2d_pvps.ipynb cells 9, 10, 12, 13, 15, 17, 19, 22, 27-29 | PvpsTutorial | decoding gives the size of a picture; files have names only |
| tutorial/tutorial_motion.ipynb cells 10, 12, 14 | MotionTutorial | real numbers; the network and the metrics of the library are parameters |
| tutorial/tutorial_keypoints.ipynb cells 13, 16; tutorial/tutorial_object_asset.ipynb cells 7, 9, 12, 13, 17 | AssetTutorial | real numbers; random numbers are parameters |
| metrics/python/keypoint_metrics.py 1066-1092, 1271-1292, 1626-1633 | BoxMatcher | exact numbers; the IoU of boxes is a parameter |
| tutorial/tutorial_maps.ipynb cell 4; tutorial/tutorial_womd_lidar.ipynb cell 6; tutorial/tutorial.ipynb cells 11, 13, 24, 25 | LaserTutorial | real numbers; drawing of maps and decoding are parameters |
| tutorial/tutorial_v2.ipynb cells 4, 7, 9, 11, 13, 25 | TablesTutorial | as for v2/dataframe_utils.py; reading files and lazy evaluation are not modelled |
| utils/camera_segmentation_utils.py 114-133, 208-239 | PanopticV2; the PNG decoders are parameters |
| utils/occupancy_flow_grids.py 88-171, utils/occupancy_flow_data.py 24-51 | Waypoints |
| utils/compression/pca_codec.py 30-47, 132-147 with the parts of `json` and `dacite` used | CodecJson |
| utils/compression/pca_codec.py 50-73 with `StandardScaler` and the transformations of `PCA` | PcaFit | how `PCA` finds the axes |
| math/polygon2d.cc 41-151 in floating point | AccSum | overflow and NaN; ties are left open; `ceil(log2(d))` is any function within a factor of three; contraction to fused operations by the compiler |
| math/aabox2d.h, math/math_util.h | AABox, Angles | |
| metrics/motion_metrics.cc, metrics/motion_metrics_utils.cc | Motion | the custom metric callback; polygon intersection is a parameter, instantiated in Props/MotionOverlap |
| metrics/python/keypoint_metrics.py, utils/keypoint_data.py | Pose | drawing (see Wireframe); `linear_sum_assignment` is a parameter |
| metrics/python/rater_feedback_utils.py | Rater | broadcasting |
| utils/camera_segmentation_utils.py | Panoptic | PNG, colour maps |
| utils/range_image_utils.py | RangeImage | batching |
| utils/transform_utils.py, utils/box_utils.py | Boxes | batching |
| utils/trajectory_utils.py, utils/sim_agents/{submission_specs,converters}.py | SimAgents | |
| wdl_limited/sim_agents_metrics/*.py | Kinematics, Estimators, Road, Interaction, SimMetrics | metric_features.py (see SimFeatures) |
| utils/geometry_utils.py | Planar | |
| utils/occupancy_flow_{data,renderer,grids,metrics}.py | Occupancy | batching, heights, Keras' area under the curve (a parameter), the assembly of visualisation grids except the trails |
| data_conversion/scenario_conversion.cc, protos/conversion_config.proto | Conversion | `AddSinglePointFeature`, the prefix `sdc/` (no callers); `std::sort` is any sort, rounding to 32 bits any function |

Not modelled: latency/run_latency_evaluation.sh, the networks and the drawing of figures in latency/examples and the tutorials, pip scripts.

## Disagreements between code and documentation

Each was found while proving; those with a theorem name are proved of the model.

Compression and tables
* `compress` overwrites the caller's array (delta_encoder.py:63-67; C57).
* Bucketed quantisation gives factor 0 for a column of zeros (C64).
* A missing nested object of a component comes back as an object of Nones; fields of equal names at different depths can be confused;
  a component whose key is None has other columns than its schema (C06, C07).

Matching, detection and tracking
* matcher.cc:283-285: the score-first matcher looks weights up at positions of the subset instead of the object (C11); it resizes the
  output without clearing it.
* `SetCustomIoUComputeFunc` and its siblings keep the caches (C12).
* With an IoU threshold of 0 objects of different types can be matched (C10).
* The details of a MOT measurement list objects that are not counted (C58); a pair evicted by a takeover is forgotten, and
  takeovers are counted as mismatches (C60); if no cutoff has positive MOTA everything is reported as 0 (C59).
* Details of detections are dropped when two shards are merged (C15).
* detection_metrics.cc:73: a pair below `min_heading_accuracy` vanishes from all counts (C61).
* The camera breakdown: the shard of a ground truth follows `most_visible_camera_name`, the matching shard its position (C63).
* The worked mAP example of metrics_utils.h:114-116 is not what the code computes (C20).
* tracking_metrics.cc:306 takes the number of predictions from the scene with the number of the frame (C21).
* A `max_recall_delta` below the resolution of a float loops forever; the tile count goes through float32.

Segmentation and boxes
* A point predicted as some class whose ground truth is ignored is no false positive; merged counts are narrowed to 32 bits; no class
  at all gives NaN (C22).
* Boxes smaller than 1 cm or larger than 1000 km have IoU 0, also with themselves (C23).
* polygon2d.cc:405-457: sides that overlap in opposite directions can end the chase at once, so that a box inside of a box turned by exactly
  half a turn has IoU 0, or the right one if the order of the two is exchanged (C94, C95, C97).  This is a statement about exact
  coordinates: boxes made with the float `π` are turned by slightly less, and their corners are not collinear.
* Asking a segment that is a point for its heading changes the heading after a later rotation (segment2d.h; C102).
* `Intersect` and `IntersectOrCoincide` compare the cross product of the directions, an area, with the length tolerance 1e-10: segments of
  length 2e-6 that cross at a right angle are taken for parallel (segment2d.cc:99-105; C103).
* `MightIntersect` allows one tolerance between the bounding boxes, `Intersect` one on each side (segment2d.h:240-249; C103).
* `DistanceToPoint` is declared in segment2d.h and nowhere defined.
* A box of length zero has no direction for its width: `Set` from a corner and `SetSize` do not keep what they promise (box2d.cc:38-61; C104).
* `ExactFloat(INT_MIN)` takes `abs(INT_MIN)`, which overflows (exactfloat.cc:111; on usual machines the word is 2^64 - 2^31; C105).
* `ldexp` bounds a negative shift by `kMinExp - 1 + a_exp` where `- a_exp` is meant: shifting a number above 1 far down returns a number that is
  not small (exactfloat.cc:714-716; C108); `frexp` inherits this.
* `ToDouble` rounds to 53 bits and then again to a subnormal (C108).
* `GetDecimalDigits` rounds up only if the kept digit is odd or other digits follow: 26 with one digit is printed as 20 (exactfloat.cc; C109).
* dataset.proto:321-326 says that the angular velocity of `CameraImage` is in the global frame, camera_model.cc:295-302 takes it in the frame of the
  vehicle (C112).
* The derivative in `ComputeDepthResidualAndJacobian` has the wrong sign for the change of the depth (camera_model.cc:665-673): a point that is in
  view can be reported as behind the camera, and `ImageToWorld` followed by `WorldToImage` may fail (C113).
* If the iteration diverges the pixel and the depth are not written, although camera_model.h:61-64 promises values (C113).
* `ImageToWorld` inverts the camera matrix by its transpose, which is exact only without turning (C113).
* With `float` tensors the times of `camera_image_metadata` are rounded to multiples of 128 seconds (C114).
* `CrossMaybeExact` promises the exact sign, but takes the quick result above the fixed threshold 2^-50 although the differences of coordinates may
  have been rounded: the sign can be wrong for long, nearly parallel segments (polygon2d.cc:110-124; C115).
* "Accumulable state": the states of batches may only be added if no frame is spread over two batches, and only for configurations that list their
  cutoffs; the documentation says neither and calls the state "a serialized DetectionMeasurementsList" (metrics_ops.cc:107-131; C118).
* `WODDetectionEvaluator.update_state` stores the predictions before it finds that a key of the ground truths is missing; a caller that catches the
  error keeps half a batch (wod_detection_evaluator.py:179-199; C119). Speeds given for some batches only make the evaluation abort (C119).
* The variables of `get_detection_metric_ops` have fixed names and are reused: two calls in one graph accumulate into the same variables
  (detection_metrics.py:38-53).
* Whether speeds are estimated in a tracking evaluation is decided by the first prediction of the first frame: if that frame has no prediction no
  speed is estimated, and if that prediction has none the speeds of all others are replaced (tracking_metrics.cc:205-216; C121).
* The tracking operation stores `ground_truth_difficulty` as the difficulty of detection, which tracking does not read: every ground truth counts at
  every level (tracking_metrics_ops.cc:206-207; C124). metrics_ops.cc:294 documents MOTA as the sum of the error rates; it is one minus that sum.
* If a configuration has no cutoffs, the result of the tracking operation depends on the names of the sequences (tracking_metrics.cc:306; C123).
* The motion operation takes a prediction for an agent without a valid step as one for the first track of the scenario: the map from agents to
  tracks reads a missing entry as zero (ops/utils.cc:371 and 406; C126).
* The motion operation uses object ids as column numbers of the matrix of object ids (ops/utils.cc:379-380; C126): with ids of the data set it reads
  outside of the tensor.
* get_motion_metric_ops names scenarios without ids by their position in the update, so that scenarios of different updates are merged
  (motion_metrics.py:134-136; C128), and demands as many agents in the ground truth as in a group (115; documented as different sizes).
* The motion operation does not check that the last dimension of the trajectories has two entries (ops/utils.cc:278-314; C125).
* The operation that matches boxes calls `Match` with a null second pointer (ops/matcher_ops.cc:124), which the score-first matcher refuses
  (matcher.cc:255): with that type of matcher the process aborts on every batch (C130).
* `match` in Python documents a fourth output, the index in the batch, that it does not return (matcher.py:78; the indices are flattened, C129).
* create_submission removes the last byte of a file if it is a line feed (create_submission.cc:149-153).  The files are binary: a file whose last
  byte happens to be 10 is damaged, and an empty file is read out of bounds (C132, `last_byte_violated`, `no_predictions_violated`).
* The comparison with latency results guesses the type of a file from whether it parses (compare_objects_file_to_submission_main.cc:86-92).
  Unknown fields always parse, so a submission whose method is called "PointPillar" is read as if it had no predictions (C134).
* The comparison goes through the frames of the latency results only: results without detections are "identical" to every submission (C137).
  `is_2d` holds whether the boxes are three-dimensional, is decided by the last detection, and is not initialised if there is none.
* make_objects_file_from_latency_results.py says that it performs "the same checks" as create_submission, but drops boxes below 0.01 that
  create_submission keeps: honest results with such boxes are rejected (C138, `honest_accepted_violated`).
* compute_detection_let_metrics_main.cc says that users need not populate the most visible camera and the camera synchronised box of ground truths
  (lines 29-31).  Without the first the ground truth is dropped, without the second its box is empty (C140, `unpopulated_violated`).  It accepts
  the camera names UNKNOWN and REAR and then aborts when it counts such an object (C141, `unknown_camera_violated`).
* The detection programs print an error instead of metrics if no object is evaluated (C141, `no_objects_violated`); the TensorFlow operation evaluates
  one empty frame.  The tracking program merges the objects of all cameras of a context and time, the detection programs keep them apart (C142).
* compute_segmentation_metrics_main.cc assumes that both returns of a frame without prediction have as many points as the first and aborts
  otherwise (C143, `uneven_returns_violated`).  If decompression fails it deletes a buffer twice (lines 83-92).
* get_ray_box_intersects says that both parameters are negative if there is no intersection; they are positive for a ray that passes beside the box
  (C145, `miss_negative_violated`).  Components of directions that are zero are replaced by 1e-10, so opposite faces are treated
  differently (C146, `parallel_violated`).  The docstring of transform_points_to_box_coord_reverse says that it goes to the coordinates of the box; it goes back.
* parse_range_image_and_camera_projection raises for a laser that has only a second return (C148, `parse_total_violated`).  Frames without the first return
  of TOP have no clouds in version 1, not even of the other lasers (C150, `clouds_exist_violated`).
* extract_top_lidar_points has a branch for calibrations without a list of inclinations, which asks an array for `dims` and raises (womd_lidar_utils.py:117;
  C152, `top_inclinations_violated`).
* The extractors of boxes and calibrations raise AssertionError, KeyError and IndexError where ExtractionError is documented (interfaces.py:107-110). A label with
  a speed and no acceleration is refused although the component may be without acceleration (C153, `laserBox_violated`; C157, `calibration_violated`).
* The id of a projected box is cut at 22 characters and the separator is not looked at; ids of another length raise KeyError (C154, `parseId_violated`).
* The ids of the objects that are not evaluated are listed in the order of a Python set, and the time to collision with two objects at the same distance is that of the
  first (C159, `compute_order_violated`).
* A map without a road edge of two points, and a scenario with a track to predict that is not valid at the current step, have no features: an exception is raised, while
  maps without lanes or signals are allowed (C160, `compute_iff_partial`, `rollouts_unscored_violated`).
* Camera rays of small patches cannot be encoded: the padding to whole tiles reflects at most once (C165, `small_patch_violated`).
* A pixel with coverage 0 has weight 1e8 in camera segmentation (C166, `weight_spec`).
* `examples_equal` depends on the order of its arguments: integers equal a list of no floats, but not the other way round; an example with NaN does not equal itself (C168, `examplesEqual_violated`).
* `get_camera_embedding_from_codebook` raises for an empty list of tokens (C169, `no_tokens_violated`).
* `convert_frame_to_dict` raises for frames whose lasers have one return (C170, `second_return_violated`), and stores the time of the pose of an image as float32, so that it is only known up to a minute (C171, `pose_timestamp_violated`).
* `group_object_labels` keeps one box per camera, and gives an empty message for missing key points but None for missing boxes (C172, `group_violated`).
* Key points of the unspecified type cannot be drawn, nor can an empty wireframe in three dimensions (C173, `wireframe_violated`).
* `crop_camera_keypoints` always drops the last row and column, and crops to a box left of or above the image with a negative end, which keeps almost all of the image (C174, `crop_violated`).
* `occupancy_rgb_image` multiplies the color of a class twice by its opacity, so uncertain cells are darker than certain ones (C175, `occupancy_violated`).
* `plot_map_features` leaves out solid double yellow lines (C177, `double_yellow_violated`), never draws stop signs as markers nor lanes wider, and raises for maps without points (C177, `plot_violated`).
* `add_map` of the simulated agents raises for road edges and lines without points (C178, `addMap_violated`).
* `ConvertChallengePredictions` adds to what the result already holds (C179, `convert_again_violated`), loses objects without trajectories (C179, `convert_inj_violated`), and validation accepts no prediction where it asks for a single one (C179, `validate_none_violated`).
* `PercentageOfCorrectKeypoints` rises when a wrong prediction is left out (C180, `pck_drop_violated`).
* `AveragePrecisionAtOKS` depends on the split into batches (C181, `ap_batches_violated`, `ap_weights_violated`) and refuses the documented weights per object (C181, `ap_perObject_violated`).
* `create_combined_metric` loses results of thresholds that print alike (C183, `thresholds_violated`), accepts subsets it cannot select (C183, `subset_violated`) and does not select the weights (C183, `subset_weights_violated`).
* `panoptic_label_to_rgb` stores the green value before it clips it, so it wraps (C184, `clip_violated`); instances share colors (C184, `instances_violated`); width one is squeezed away (C184, `width_one_violated`).
* `load_frames_with_labels_from_dataset` adds a frame of the next sequence (C185, `sequence_violated`) and gives a frame when none is asked for (C185, `count_violated`).
* `create_pose_estimation_tensors` puts boxes beside other objects if some have none (C186, `create_boxes_violated`), keeps objects without key points (C186, `no_points_violated`) and raises without types (C186, `no_types_violated`).
* The TensorFlow example for images scales x by the height and y by the width (C187, `tfBox_violated`, `tfBox_outside_violated`); the PyTorch one returns one detection (C187, `runTorch_violated`) with x and y exchanged (C187, `torch_order_violated`); both raise without detections (C187, `empty_violated`).
* The occupancy tutorial exchanges the arguments of the flow loss (C192, `zero_flow_violated`), divides it by half of the cells (C192, `doubled_flow_violated`) and trains on the truth of an earlier batch (C192, `train_violated`, `train_ignores_batch`).
* The sim agents tutorial gives 32 equal rollouts if the largest signed velocity is zero (C194, `diverse_violated`).
* The scenario generation tutorial keeps the history of the first track rather than of the autonomous vehicle (C196, `strip_violated`), places agents around the origin if that track is not valid now (C197, `generate_origin_violated`), never writes object types (C197, `types_violated`) and gives sizes with another number of steps than positions (C197, `sizes_violated`).
* The segmentation tutorial cannot give labels of second returns (C198, `second_violated`), leaves out labelled frames if the top laser is not first (C200, `validation_violated`) and never chooses a frame of the test set (C200, `testing_violated`).
* The driving tutorial takes calibrations by the position of images (C201, `front3_violated`), draws invisible way points in a corner (C201, `drawn_violated`), broadcasts trajectories of one way point (C203, `single_step_violated`), gives sums for means (C203, `single_truth_violated`) and reads speeds from a global variable (C203, `initialSpeeds_violated`).
* The camera-only tutorial evaluates frames of different contexts at the same time as one (C205, `frames_violated`), draws nothing if one corner cannot be projected (C206, `hidden_corner_violated`) and bends edges at the border (C206, `wireframe_violated`).
* The panoptic tutorial collects a frame of another sequence (C207, `collect_violated`), decodes the front left label as the front one (C207, `front_violated`), splits rows of a global variable (C207, `ungroup_violated`), cannot be run twice (C209, `saveAll_violated`) and may name the submission like the data (C209, `saveName_violated`).
* The motion tutorial draws invalid samples of the road (C210, `road_violated`), shows the first half of its pictures (C210, `animated_violated`), divides the loss by the steps of all objects (C211, `loss_violated`), does not tell the network what is valid (C211, `input_violated`), never resets its metrics (C212, `epochs_violated`) and counts samples twice (C212, `seen_violated`).
* The key points tutorial raises for frames without key points (C213, `laserData_violated`) and submits occluded key points as visible (C213, `occluded_violated`). The object asset tutorial shows one row or column of images only (C214, `grid_violated`) and computes masks of global variables (C214, `rayMask_violated`).
* The matcher of key point metrics gives the centers of boxes where their bottoms are expected (C216, `matchingIds_violated`); it raises for boxes without heading and for matching by scores (C216, `refused_violated`).
* The map tutorial shows one laser of each frame, and colors by range what it calls intensity (C217, `maps_violated`).
* The motion lidar tutorial raises for a frame without lasers or calibration (C218, `allPoints_violated`).
* The tutorial ignores the labels it is given (C219, `camera_violated`), shows pixels without return like distant ones (C219, `brightness_violated`) and misses points whose second projection is in the camera (C220, `projected_violated`).
* The tutorial of the second version drops images without boxes (C221, `images_violated`), and counts an object once per camera that sees it (C221, `found_violated`).
* Boxes at a right angle: a box inside of a longer one that heads to the right of it, with left sides on one line, is found to have no common area with it; in the other order it is found (C222, `iou_turned_violated`).
* The overlap test of the motion metrics reads the first vertex of an empty polygon when predictions have one point and the bounding box of another object contains the origin (C223, `overlapsStep_one_point`).
* `_remap_global_ids` skips messages without instances but not components without instances: a sequence none of whose components has an instance raises (`max` of an empty set), and a component without instances that is the first of its sequence changes the global ids of other labels (C225).
* `IsConvexHull` accepts outlines that wind around twice and cross themselves; after an inconclusive first reference point no other one can be
  conclusive, since the fan of every other point contains the point itself (polygon2d.cc:600-626; C101).
* A segment that is a point is reported to intersect a segment that it is not on (polygon2d.cc:295-342; C99).
* LET centre alignment keeps the height, contrary to its documentation; iou.h documents `min(1-(e_lon/tol_r),0.0)` for a maximum (C68).
* Building an `AABox2dTree` of no boxes reads outside of a vector (C67).
* `transform_box` does not keep membership when frames differ by pitch or roll (C56).

Motion
* `ValidateConfig` accepts rates that are not multiples, zero or negative (C24); motion_metrics.cc:752 returns at the first empty
  prediction (C25); the length check of `SpeedScaleFactor` is `<` instead of `≤`; tracks that are not predicted are not checked for
  length in the overlap metric; trajectories of one step give empty polygons.
* A negative `max_predictions` crashes; 0 is "unlimited" for minADE and miss rate but "none" for mAP; "top K" are the first K.
* Predicted boxes take their size from a ground truth state that may be invalid; the heading of a prediction that does not move is 0 (C69).
* After an empty first joint prediction the later ones may have any ids.  Negative confidences reverse the order.

Key points and rater feedback
* The heading of a box is used with the wrong sign (C35); `label_box_from_box_proto` swaps length and width (C71); the association does not
  minimise the pose estimation metric as documented (C72); a box without volume has similarity 1 (C73); a threshold above 1e10 associates
  an object twice (C32).
* The rater score has its floor only outside of the trust region, so that a worse prediction may score more (C37); more than three rated
  trajectories are cut silently.

Panoptic labels
* camera_segmentation_utils.py:299: the divisor is raised to the largest id and not one above; line 328 checks the labels before
  remapping; ids are cut to 16 bits; ids that are not mapped may collide; an id of 0 collides across sequences; a component without
  instances cannot be remapped; saving wraps modulo 2^32 before it looks for an overflow; the order of the returned tuple differs from
  the docstring (C38 to C41).

Range images
* A corrected azimuth of exactly -π fails an assertion if the width is even (C44); ties of the packed range mix features of two points
  (C42); columns outside of the image alias into the next row (C43); a crop to the same width ignores an invalid shift (C45).

Sim agents
* An object may be simulated twice in a scene that passes the validation (C47); the validation of scenario generation does not look at
  box sizes; future box sizes are those of the current step (C48).
* traffic_light_features.py:267 has the wrong sign; the padding of short lanes makes a phantom segment to the origin (C49); an invalid step before
  can trigger a red light violation (C77).
* The padding of closed road edges changes signs (C51); a point on the extension of an edge has distance 0 (C78).
* The difference of headings is not reduced in the time to collision (C50); the validity of the object itself is ignored there and
  speeds come from positions that may be invalid.
* Without a valid vehicle the time to collision likelihood and the meta-metric are NaN (C80); `central_diff` of fewer than two steps has two
  steps (C52); the average displacement error includes the history (C81); the aggregation drops fields not set in the first message (C55);
  the configuration for scenario generation does not pool objects for the traffic light feature.
* `CORNER_ROUNDING_FACTOR = 1` is documented to give capsules but gives NaN edges; boxes of size 0 give NaN distances (C82); without other
  objects the nearest distance is the large constant minus the smaller side in exact arithmetic (C53).

Occupancy and flow
* Agents seen in the past but not now are "currently-observed" (occupancy_flow_renderer.py:588-593), while the proto documents validity at the
  current step (C83).
* With the default 48 points a vehicle longer than about 14.7 m has holes in its box (C83).
* Accumulated flow averages dx and dy separately over their own non-zero values (occupancy_flow_grids.py:463-482; C85).
* `compute_occupancy_flow_metrics` always raises, because `_flow_warp` is not in the open source version (C86).
* The end point error counts only cells whose true flow is not zero: vehicles that stand still are left out, contrary to "averaged over all
  cells in the grid" (C86).

Conversion of scenarios
* A polygon without vertices, fewer steps than `num_past_steps`, an index outside of the tracks in `tracks_to_predict` and more modeled agents
  than `max_num_agents` crash the conversion although the scenario passes `ValidateScenarioProto` (C93).
* The vehicle itself is left out if it is not valid now or there is no room (C91).
* `traffic_light_state/*/id` passes a 32 bit float (the other branch of the conditional is `-1.0f`), so that large ids do not match the road
  graph (C92); `state/id` is a float as well.
* `timestamp_micros` is computed from 32 bit seconds and cut, and can be a microsecond short (C90).
* "Spaced apart by this value" of `polygon_sample_spacing` is only a bound: gaps may be nearly twice as wide (C89).
* The counter of padded traffic lights can be negative (C92); objects of interest are looked up in `GetModeledAgents` and not used.
* `num_past_steps` includes the current step here and not in the occupancy flow configuration; the default of 30000 road graph samples is not the 20000
  that occupancy_flow_data.py expects.
