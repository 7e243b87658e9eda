{
 "claims": [
  {
   "property": "C01",
   "status": "proved",
   "theorems": [
    "Verif.DeltaEncoder.decompress_compress",
    "Verif.DeltaEncoder.roundtrip_error_exact",
    "Verif.DeltaEncoder.roundtrip_error",
    "Verif.DeltaEncoder.roundHalfEven_spec"
   ],
   "note": "floats are exact rationals; the stored precision is narrowed to binary32 as in the proto"
  },
  {
   "property": "C02",
   "status": "proved",
   "theorems": [
    "Verif.DeltaEncoder.rle_roundtrip",
    "Verif.DeltaEncoder.rle_refuses_only_empty",
    "Verif.DeltaEncoder.decompress_accepts_iff"
   ],
   "note": ""
  },
  {
   "property": "C03",
   "status": "proved",
   "theorems": [
    "Verif.DeltaEncoder.compress_accepts_iff",
    "Verif.DeltaEncoder.compress_error_kind"
   ],
   "note": "an image without cells raises IndexError rather than ValueError"
  },
  {
   "property": "C04",
   "status": "proved",
   "theorems": [
    "Verif.Tiling.combine_extract",
    "Verif.Tiling.extract_combine",
    "Verif.Tiling.extractTiles_spec",
    "Verif.Tiling.mirror_spec",
    "Verif.Tiling.combineTiles_spec",
    "Verif.Tiling.extractTiles_illegal"
   ],
   "note": "the number of tiles is computed exactly; the code goes through a float32"
  },
  {
   "property": "C05",
   "status": "proved",
   "theorems": [
    "Verif.Pca.quantize_int32",
    "Verif.Pca.quantize_near",
    "Verif.Pca.quantize_above",
    "Verif.Pca.quantize_below",
    "Verif.Pca.quantize_invQuantize"
   ],
   "note": "exact arithmetic in any ordered field with a floor"
  },
  {
   "property": "C06",
   "status": "partial",
   "theorems": [
    "Verif.Component.roundTrip_full",
    "Verif.Component.roundTrip_partial",
    "Verif.Component.roundTrip_iff",
    "Verif.Component.Shipped.fromDict_toFlattenDict",
    "Verif.Component.Shipped.roundTrip_none_violated",
    "Verif.Component.roundTrip_clash_violated",
    "Verif.Component.roundTrip_nested_clash_violated"
   ],
   "note": "violated in general: a missing nested object comes back as an object of Nones (also in shipped classes), and equal field names at different depths can be confused; proved for every object without missing nested objects of every class without such names, in particular of every shipped class, with an exact criterion for classes"
  },
  {
   "property": "C07",
   "status": "proved",
   "theorems": [
    "Verif.Component.toFlattenDict_spec",
    "Verif.Component.schema_spec",
    "Verif.Component.schema_columns",
    "Verif.Component.shared_columns",
    "Verif.Component.Shipped.shared_key",
    "Verif.Component.schema_none_key_violated",
    "Verif.Component.render_injective",
    "Verif.Component.render_removePrefix"
   ],
   "note": "a component whose key is None has other columns than its schema (schema_none_key_violated)"
  },
  {
   "property": "C08",
   "status": "proved",
   "theorems": [
    "Verif.Frame.merge_spec",
    "Verif.Frame.merge_no_key",
    "Verif.Frame.grouped_no_cross_product"
   ],
   "note": "pandas' merge and groupby are modelled from their documentation; row order of outer joins and groups and type casts are not"
  },
  {
   "property": "C09",
   "status": "proved",
   "theorems": [
    "Verif.Hungarian.hungarian_optimal",
    "Verif.Hungarian.hungarian_labels",
    "Verif.Hungarian.hungarian_empty"
   ],
   "note": "weights in [0,W] with 2W representable in the int weight type; n = 0 is refused by the code"
  },
  {
   "property": "C10",
   "status": "proved",
   "theorems": [
    "Verif.Matcher.hungarianMatch_optimal",
    "Verif.Matcher.eligible_same_type",
    "Verif.Matcher.zero_threshold_matches_other_type"
   ],
   "note": "also covers the LET matcher; equal types need a positive threshold, the counterexample for a zero threshold is proved too"
  },
  {
   "property": "C11",
   "status": "partial",
   "theorems": [
    "Verif.Matcher.scoreFirstMatch_partial",
    "Verif.Matcher.scoreFirstMatch_all_partial",
    "Verif.Matcher.scoreFirstMatch_violated",
    "Verif.Matcher.scoreFirstMatch_stale_output"
   ],
   "note": "false of the code for proper subsets: matcher.cc:283-285 looks the weight up at subset positions; proved for full subsets, and the matching is consistent for all"
  },
  {
   "property": "C12",
   "status": "proved",
   "theorems": [
    "Verif.Matcher.history_outputs",
    "Verif.Matcher.iou_after_history",
    "Verif.Matcher.iou_out_of_range",
    "Verif.Matcher.setCustomIou_after_query_stale",
    "Verif.Matcher.aff_after_history",
    "Verif.Matcher.setCustomAff_fresh"
   ],
   "note": "setters of custom functions keep the caches; that limit is a theorem"
  },
  {
   "property": "C13",
   "status": "proved",
   "theorems": [
    "Verif.Mot.run_explained",
    "Verif.Mot.run_totals",
    "Verif.Mot.frame_accounting",
    "Verif.Mot.ofMatcher_usable"
   ],
   "note": "for every iteration order of the hash maps and every matcher that returns consistent partial maps; the Hungarian matcher is one (ofMatcher_usable)"
  },
  {
   "property": "C14",
   "status": "proved",
   "theorems": [
    "Verif.Mot.run_explained",
    "Verif.Mot.mem_held",
    "Verif.Mot.eval_ids"
   ],
   "note": "mismatches field of Explains, with mem_held saying what is held after a history"
  },
  {
   "property": "C15",
   "status": "proved",
   "theorems": [
    "Verif.Measure.detection_accumulates",
    "Verif.Measure.detection_order_irrelevant",
    "Verif.Measure.detection_sharding_irrelevant",
    "Verif.Measure.tracking_accumulates",
    "Verif.Measure.tracking_order_irrelevant",
    "Verif.Measure.tracking_sharding_irrelevant",
    "Verif.Measure.merge_refuses_other_shape",
    "Verif.Measure.merge_refuses_other_shape_tracking",
    "Verif.Measure.details_appended_partial",
    "Verif.Measure.details_sharding_violated"
   ],
   "note": "counters and shape; in exact arithmetic. The optional per-frame details are dropped when two shards of at least two frames are merged (details_sharding_violated)"
  },
  {
   "property": "C16",
   "status": "proved",
   "theorems": [
    "Verif.Detection.measure_spec",
    "Verif.Detection.tp_fp_le",
    "Verif.Detection.tp_fn_eq",
    "Verif.Detection.tp_fn_eq_of_min",
    "Verif.Detection.measure_bounds",
    "Verif.Detection.frame_spec",
    "Verif.Detection.frame_shape",
    "Verif.Detection.frames_accumulate",
    "Verif.Detection.hungarianOn_ok"
   ],
   "note": "for every matcher that returns consistent partial maps; the Hungarian matcher is one (hungarianOn_ok)"
  },
  {
   "property": "C17",
   "status": "proved",
   "theorems": [
    "Verif.Breakdown.rangeShard_known",
    "Verif.Breakdown.sizeShard_known",
    "Verif.Breakdown.velocityShard_known",
    "Verif.Breakdown.rangeShard_eq_iff",
    "Verif.Breakdown.sizeShard_eq_iff",
    "Verif.Breakdown.velocityShard_eq_iff",
    "Verif.Breakdown.objectTypeShard_eq_iff",
    "Verif.Breakdown.shard_valid",
    "Verif.Breakdown.matching_valid"
   ],
   "note": "cameras limited to the five of the dataset; other camera names abort"
  },
  {
   "property": "C18",
   "status": "proved",
   "theorems": [
    "Verif.Breakdown.shardSubsets_spec",
    "Verif.Breakdown.shardSubsets_partition",
    "Verif.Breakdown.buildSubsets_spec",
    "Verif.Breakdown.create_sound"
   ],
   "note": ""
  },
  {
   "property": "C19",
   "status": "proved",
   "theorems": [
    "Verif.Curve.score_cutoffs_ok",
    "Verif.Curve.score_cutoffs_ranks",
    "Verif.Curve.sequence_uniform",
    "Verif.Curve.estimateDetection_ok",
    "Verif.Curve.estimateDetection_perm"
   ],
   "note": "exact rationals instead of floats"
  },
  {
   "property": "C20",
   "status": "proved",
   "theorems": [
    "Verif.Curve.map_bounds",
    "Verif.Curve.map_perm",
    "Verif.Curve.map_mono",
    "Verif.Curve.map_perfect",
    "Verif.Curve.toPoint_spec",
    "Verif.Curve.toPoint_bounds",
    "Verif.Curve.toDetectionMetrics_ok",
    "Verif.Curve.detection_metrics_ok",
    "Verif.Curve.documented_example_violated",
    "Verif.Curve.fill_gap",
    "Verif.Curve.fill_gap_case"
   ],
   "note": "exact rationals instead of floats; the worked example in metrics_utils.h:114-116 is not what the code computes (documented_example_violated)"
  },
  {
   "property": "C21",
   "status": "partial",
   "theorems": [
    "Verif.Curve.tracking_cutoffs_partial",
    "Verif.Curve.tracking_cutoffs_use_all_scores_violated",
    "Verif.Curve.tracking_cutoffs_defined_violated",
    "Verif.Curve.tracking_cutoffs_no_scenes_violated",
    "Verif.Curve.tracking_cutoffs_exact",
    "Verif.Curve.trackingScores_some_iff",
    "Verif.Curve.tracking_scores_all_iff",
    "Verif.Curve.tracking_scores_case"
   ],
   "note": "false of the code: tracking_metrics.cc:306 takes the number of predictions from the scene with the number of the frame"
  },
  {
   "property": "C22",
   "status": "partial",
   "theorems": [
    "Verif.Segmentation.computeIOU_spec",
    "Verif.Segmentation.new_rejects",
    "Verif.Segmentation.update_rejects",
    "Verif.Segmentation.reset_spec",
    "Verif.Segmentation.metricsSpec_perm",
    "Verif.Segmentation.metricsSpec_bounds",
    "Verif.Segmentation.merge_partial",
    "Verif.Segmentation.merge_rejects",
    "Verif.Segmentation.merge_overflow_violated",
    "Verif.Segmentation.merge_iff",
    "Verif.Segmentation.merge_counts",
    "Verif.Segmentation.merge_case"
   ],
   "note": "Proved for all frames and shards while no class has 2^31 or more points; beyond that MergeResults narrows its counts to 32 bits, and merge_overflow_violated exhibits shards of IoU 0 merging to 1; merge_iff: exactly then. A point predicted to be of a class whose ground truth is outside the evaluated list counts for neither class, as the specification makes explicit."
  },
  {
   "property": "C23",
   "status": "partial",
   "theorems": [
    "Verif.Iou.iou_aa2d",
    "Verif.Iou.iou_aa2d_spec",
    "Verif.Iou.iou_2d_partial",
    "Verif.Iou.iou_3d_partial",
    "Verif.Iou.iou_2d_spec",
    "Verif.Iou.iou_3d_spec",
    "Verif.Iou.batch_spec",
    "Verif.Iou.iou_tiny_violated"
   ],
   "note": "Fully proved for axis-aligned boxes between 1 cm and 1000 km; for rotated 2D and upright 3D boxes proved from the assumption that the polygon routine returns the area of the intersection (discharged in C95 and C96 for the code). Boxes outside of the size limits have IoU 0 even with themselves (iou_tiny_violated)."
  },
  {
   "property": "C24",
   "status": "partial",
   "theorems": [
    "Verif.Motion.validateConfig_ok",
    "Verif.Motion.config_in_range_partial",
    "Verif.Motion.computeMetricsStats_no_crash",
    "Verif.Motion.config_violated",
    "Verif.Motion.config_zero_rate_violated",
    "Verif.Motion.challengeConfig_ok",
    "Verif.Motion.config_in_range_iff",
    "Verif.Motion.config_in_range_iff_case"
   ],
   "note": "false of the code: ValidateConfig accepts rates that are not multiples, zero and negative rates; proved for the others, of which the challenge configuration is one"
  },
  {
   "property": "C25",
   "status": "partial",
   "theorems": [
    "Verif.Motion.computeMetricsStats_cases",
    "Verif.Motion.computeMetricsStats_partial",
    "Verif.Motion.all_contribute_partial",
    "Verif.Motion.objectType_spec",
    "Verif.Motion.empty_prediction_violated",
    "Verif.Motion.example_sound",
    "Verif.Motion.example_evaluates",
    "Verif.Motion.all_contribute_iff",
    "Verif.Motion.all_contribute_case"
   ],
   "note": "false of the code: motion_metrics.cc:752 returns at the first empty prediction; proved for inputs without one"
  },
  {
   "property": "C26",
   "status": "proved",
   "theorems": [
    "Verif.Motion.Stats.accumulate_spec",
    "Verif.Motion.Stats.accumulate_comm",
    "Verif.Motion.Stats.accumulate_assoc",
    "Verif.Motion.Stats.accumulate_nil",
    "Verif.Motion.Stats.nil_accumulate",
    "Verif.Motion.Stats.acrossTypes_spec",
    "Verif.Motion.motionMetrics_spec",
    "Verif.Motion.motionMetrics_congr",
    "Verif.Motion.allStats_perm",
    "Verif.Motion.allStats_shards",
    "Verif.Motion.bundle_den",
    "Verif.Motion.bundle_spec",
    "Verif.Motion.Stats.addTo_spec"
   ],
   "note": "sums in exact arithmetic"
  },
  {
   "property": "C27",
   "status": "proved",
   "theorems": [
    "Verif.Motion.averagePrecision_spec",
    "Verif.Motion.interpolated_isGreatest",
    "Verif.Motion.averagePrecision_bounds",
    "Verif.Motion.averagePrecision_perm",
    "Verif.Motion.averagePrecision_remove",
    "Verif.Motion.labelled_tpCount",
    "Verif.Motion.labelled_soft_hard",
    "Verif.Motion.labelled_ties",
    "Verif.Motion.bundle_map_bounds",
    "Verif.Motion.mapMetric_bounds",
    "Verif.Motion.mapMetric_mono",
    "Verif.Motion.mapStats_ok",
    "Verif.Motion.exists_ordered"
   ],
   "note": "exact arithmetic"
  },
  {
   "property": "C28",
   "status": "proved",
   "theorems": [
    "Verif.Motion.minDisplacement_spec",
    "Verif.Motion.minDisplacement_mono",
    "Verif.Motion.missRate_spec",
    "Verif.Motion.missRate_mono",
    "Verif.Motion.scaleFor_bounds",
    "Verif.Motion.example_minDisplacement"
   ],
   "note": "exact arithmetic"
  },
  {
   "property": "C29",
   "status": "proved",
   "theorems": [
    "Verif.Motion.overlapRate_spec",
    "Verif.Motion.likelyIndex_spec",
    "Verif.Motion.mostLikely_unique",
    "Verif.Motion.hasOverlap_ok",
    "Verif.Motion.likelyIndex_negative_violated"
   ],
   "note": "the area of the intersection of two polygons is a parameter here; see C97 for it"
  },
  {
   "property": "C30",
   "status": "proved",
   "theorems": [
    "Verif.Angles.positiveModuloInt_spec",
    "Verif.Angles.positiveModulo_spec",
    "Verif.Angles.positiveModulo_congr",
    "Verif.Angles.wrapToRange_spec",
    "Verif.Angles.wrapToRange_congr",
    "Verif.Angles.wrapToRange_of_mem",
    "Verif.Angles.wrapToRange_idem",
    "Verif.Angles.normalizeAngle_spec",
    "Verif.Angles.normalizeAngle_congr",
    "Verif.Angles.normalizeAngle_eq",
    "Verif.Angles.wrapAngle_eq",
    "Verif.Angles.boundToRange_spec"
   ],
   "note": "integers with the bounds of their type, floating point as exact reals"
  },
  {
   "property": "C31",
   "status": "proved",
   "theorems": [
    "Verif.Angles.headingAccuracy_of_diff",
    "Verif.Angles.exists_diff",
    "Verif.Angles.headingAccuracy_mem",
    "Verif.Angles.headingAccuracy_comm",
    "Verif.Angles.headingAccuracy_turns",
    "Verif.Angles.headingAccuracy_rotate",
    "Verif.Angles.headingAccuracy_eq_one",
    "Verif.Angles.headingAccuracy_eq_zero"
   ],
   "note": "over exact reals"
  },
  {
   "property": "C32",
   "status": "proved",
   "theorems": [
    "Verif.Pose.matchingIds_spec",
    "Verif.Pose.matchingIds_reorder",
    "Verif.Pose.exists_lsa",
    "Verif.Pose.matchingIds_threshold_violated"
   ],
   "note": "SciPy's linear_sum_assignment is a parameter with its documented property, which is shown to be satisfiable; false above the stated threshold, where the placeholder for pairs that are no candidates is accepted"
  },
  {
   "property": "C33",
   "status": "proved",
   "theorems": [
    "Verif.Pose.reorder_spec",
    "Verif.Pose.reorder_out",
    "Verif.Pose.matchingIds_reorder",
    "Verif.Pose.example_reorder"
   ],
   "note": "for every association, not only those of the official matcher"
  },
  {
   "property": "C34",
   "status": "proved",
   "theorems": [
    "Verif.Pose.pointError_matched",
    "Verif.Pose.pointError_mismatched",
    "Verif.Pose.pointError_absent",
    "Verif.Pose.pem_spec",
    "Verif.Pose.pem_bounds",
    "Verif.Pose.pem_shape",
    "Verif.Pose.mpjpe_nonneg",
    "Verif.Pose.example_pem"
   ],
   "note": "real arithmetic"
  },
  {
   "property": "C35",
   "status": "partial",
   "theorems": [
    "Verif.Pose.boxDisplacement_spec",
    "Verif.Pose.boxDisplacement_zero",
    "Verif.Pose.boxDisplacement_within_partial",
    "Verif.Pose.boxDisplacement_turned_violated",
    "Verif.Pose.boxDisplacement_within_iff",
    "Verif.Pose.boxDisplacement_within_iff_case"
   ],
   "note": "false of turned boxes: the key point metrics use the opposite heading; proved for exactly the boxes for which it holds (boxDisplacement_within_iff): headings that are multiples of 90 degrees, and square ones at 45 degrees, and the displacement is proved to be the shortest one into the box with the opposite heading"
  },
  {
   "property": "C36",
   "status": "proved",
   "theorems": [
    "Verif.Rater.padTo_spec",
    "Verif.Rater.padTo_empty",
    "Verif.Rater.processOne_spec",
    "Verif.Rater.processOne_mismatch",
    "Verif.Rater.process_spec",
    "Verif.Rater.ratings_padding",
    "Verif.Rater.example_process"
   ],
   "note": ""
  },
  {
   "property": "C37",
   "status": "partial",
   "theorems": [
    "Verif.Rater.score_spec",
    "Verif.Rater.score_bounds",
    "Verif.Rater.score_outside",
    "Verif.Rater.isScore_inside",
    "Verif.Rater.isScore_congr",
    "Verif.Rater.isScore_unique",
    "Verif.Rater.inferenceScore_spec",
    "Verif.Rater.normalised_spec",
    "Verif.Rater.offset_le_one",
    "Verif.Rater.distances_spec",
    "Verif.Rater.along_across",
    "Verif.Rater.heading_unit",
    "Verif.Rater.speedScale_spec",
    "Verif.Rater.isScore_closer_partial",
    "Verif.Rater.score_closer_violated"
   ],
   "note": "everything but the last clause is proved; a closer prediction can score less, because the floor is given only outside the trust regions: with a label of 0, a perfect match scores 0 and a prediction 100 m away scores 4; proved when no trust region is entered or no label is below the floor"
  },
  {
   "property": "C38",
   "status": "proved",
   "theorems": [
    "Verif.Panoptic.decode_encode",
    "Verif.Panoptic.encode_decode",
    "Verif.Panoptic.decode_bound",
    "Verif.Panoptic.decode_rejects",
    "Verif.Panoptic.decode_encode_case",
    "Verif.Panoptic.decode_encode_violated"
   ],
   "note": "labels beyond 32 bits are lost silently (decode_encode_violated), which the statement excludes"
  },
  {
   "property": "C39",
   "status": "partial",
   "theorems": [
    "Verif.Panoptic.remap_domain",
    "Verif.Panoptic.remap_injective_partial",
    "Verif.Panoptic.remap_sequential",
    "Verif.Panoptic.remap_single",
    "Verif.Panoptic.remap_defined",
    "Verif.Panoptic.remap_injective_violated",
    "Verif.Panoptic.remap_component_violated",
    "Verif.Panoptic.remap_case",
    "Verif.Panoptic.remap_injective_iff",
    "Verif.Panoptic.remap_injective_iff_case"
   ],
   "note": "proved for exactly the ids for which it holds (remap_injective_iff): zero may be used only in the sequence of the first frame that is looked at; an id of 0 collides with the largest id of the sequence before (remap_injective_violated), and a component without instances cannot be remapped"
  },
  {
   "property": "C40",
   "status": "partial",
   "theorems": [
    "Verif.Panoptic.multi_plain",
    "Verif.Panoptic.multi_semantic_partial",
    "Verif.Panoptic.multi_default_partial",
    "Verif.Panoptic.multi_distinct_partial",
    "Verif.Panoptic.multi_divisor",
    "Verif.Panoptic.decodeFrame_spec",
    "Verif.Panoptic.multi_semantic_violated",
    "Verif.Panoptic.multi_check_violated",
    "Verif.Panoptic.multi_width_violated",
    "Verif.Panoptic.multi_unmapped_violated",
    "Verif.Panoptic.multi_case"
   ],
   "note": "false of the code: the divisor is raised to the largest id instead of one above it, the error for a divisor that is too small looks at the ids before remapping, and ids of more than 16 bits are cut; proved when the remapped ids are below the divisor and fit"
  },
  {
   "property": "C41",
   "status": "partial",
   "theorems": [
    "Verif.Panoptic.save_decode_partial",
    "Verif.Panoptic.save_fits",
    "Verif.Panoptic.save_defined",
    "Verif.Panoptic.save_parts",
    "Verif.Panoptic.save_decode_violated",
    "Verif.Panoptic.save_overflow_violated",
    "Verif.Panoptic.save_case",
    "Verif.Panoptic.save_decode_iff"
   ],
   "note": "proved when the instance labels are below the stored divisor; otherwise the semantic class changes (save_decode_violated), because of the divisor of C40"
  },
  {
   "property": "C42",
   "status": "partial",
   "theorems": [
    "Verif.RangeImage.encodeGrid_iff",
    "Verif.RangeImage.encodeGrid_spec",
    "Verif.RangeImage.encodeGrid_mono",
    "Verif.RangeImage.encodeFeatures_spec",
    "Verif.RangeImage.decode_encodeFeatures",
    "Verif.RangeImage.encodeFeatures_iff",
    "Verif.RangeImage.pack_order",
    "Verif.RangeImage.floatUnits_lt",
    "Verif.RangeImage.intensity_error",
    "Verif.RangeImage.buildFeatures_pool",
    "Verif.RangeImage.buildFeatures_nearest_partial",
    "Verif.RangeImage.buildFeatures_mixed_violated"
   ],
   "note": "all but the pixels is proved; a pixel with two points of the same quantised range mixes their features (buildFeatures_mixed_violated), proved when the nearest point is the only one of its quantised range"
  },
  {
   "property": "C43",
   "status": "proved",
   "theorems": [
    "Verif.RangeImage.scatter_spec",
    "Verif.RangeImage.scatter_perm",
    "Verif.RangeImage.segMin_spec",
    "Verif.RangeImage.segMax_spec",
    "Verif.RangeImage.segMin_perm",
    "Verif.RangeImage.scatter_case",
    "Verif.RangeImage.scatter_outside_violated"
   ],
   "note": "a column outside of the image silently lands in the next row (scatter_outside_violated)"
  },
  {
   "property": "C44",
   "status": "partial",
   "theorems": [
    "Verif.RangeImage.project_extract",
    "Verif.RangeImage.build_extract",
    "Verif.RangeImage.extract_yaw",
    "Verif.RangeImage.build_extract_case",
    "Verif.RangeImage.project_spec",
    "Verif.RangeImage.project_total_partial",
    "Verif.RangeImage.project_behind_violated",
    "Verif.RangeImage.extract_pose",
    "Verif.RangeImage.extract_same_pose",
    "Verif.RangeImage.extract_no_frame",
    "Verif.RangeImage.project_none_iff",
    "Verif.RangeImage.project_behind_case"
   ],
   "note": "the round trip is proved; a point whose corrected azimuth is exactly -pi fails an assertion if the width is even (project_behind_violated), all others get a pixel"
  },
  {
   "property": "C45",
   "status": "proved",
   "theorems": [
    "Verif.RangeImage.crop_iff",
    "Verif.RangeImage.crop_spec",
    "Verif.RangeImage.crop_case",
    "Verif.RangeImage.crop_same_width"
   ],
   "note": "an image of the width requested is returned also with an invalid shift"
  },
  {
   "property": "C46",
   "status": "proved",
   "theorems": [
    "Verif.SimAgents.argGather_iff",
    "Verif.SimAgents.gatherById_spec",
    "Verif.SimAgents.sliceTime_spec",
    "Verif.SimAgents.argGather_case"
   ],
   "note": ""
  },
  {
   "property": "C47",
   "status": "partial",
   "theorems": [
    "Verif.SimAgents.simAgentIds_spec",
    "Verif.SimAgents.validateScene_partial",
    "Verif.SimAgents.validateRollouts_spec",
    "Verif.SimAgents.evaluationIds_spec",
    "Verif.SimAgents.pyGet_iff",
    "Verif.SimAgents.validateScene_twice_violated",
    "Verif.SimAgents.validateScene_case"
   ],
   "note": "proved up to repetition: a joint scene that simulates an object twice passes the validation (validateScene_twice_violated); box sizes are not checked"
  },
  {
   "property": "C48",
   "status": "partial",
   "theorems": [
    "Verif.SimAgents.fromScenario_iff",
    "Verif.SimAgents.toScene_spec",
    "Verif.SimAgents.toScene_valid",
    "Verif.SimAgents.toScene_none",
    "Verif.SimAgents.sceneToTrajs_spec",
    "Verif.SimAgents.roundTrip_partial",
    "Verif.SimAgents.roundTrip_size_violated",
    "Verif.SimAgents.genToTrajs_meaning",
    "Verif.SimAgents.genToTrajs_log"
   ],
   "note": "the submission is proved valid, and positions, headings, validity, ids and types are those of the log; the box sizes after the current step are those of the current step (roundTrip_size_violated)"
  },
  {
   "property": "C49",
   "status": "partial",
   "theorems": [
    "Verif.Road.nearestSegment_partial",
    "Verif.Road.nearestSegment_first",
    "Verif.Road.laneDist_bounds",
    "Verif.Road.nearestSegment_valid",
    "Verif.Road.nearestSegment_violated",
    "Verif.Road.nearestSegment_padding_violated",
    "Verif.Road.nearestSegment_case"
   ],
   "note": "fails: the closest point has the wrong sign in the formula (nearestSegment_violated) and a segment from the end of a short lane to the zero padding counts as valid (nearestSegment_padding_violated); proved for lanes of equal length up to an error that is zero for a segment starting in front of the point"
  },
  {
   "property": "C50",
   "status": "partial",
   "theorems": [
    "Verif.Interaction.ttcStep_range",
    "Verif.Interaction.timeToCollision_range",
    "Verif.Interaction.ttcStep_spec",
    "Verif.Interaction.ttcStep_turns_partial",
    "Verif.Interaction.ttcStep_turns_violated",
    "Verif.Interaction.longDistance_spec",
    "Verif.Interaction.latOverlap_spec",
    "Verif.Interaction.following_iff",
    "Verif.Interaction.ttcStep_unknown",
    "Verif.Interaction.carAt_first"
   ],
   "note": "the range is proved; the value is proved to be the gap over the closing speed for the nearest followed object; a full turn in a heading changes the result since the difference of headings is not reduced (ttcStep_turns_violated), and does not if the differences are at most half a turn"
  },
  {
   "property": "C51",
   "status": "partial",
   "theorems": [
    "Verif.Road.edgeDistance_partial",
    "Verif.Road.edgeDistance_extra_partial",
    "Verif.Road.edgeDistance_extra_violated",
    "Verif.Road.edgeDistance_spec",
    "Verif.Road.edgeDistance_extra_iff",
    "Verif.Road.tip_seam",
    "Verif.Road.tensorize_spec"
   ],
   "note": "fails for closed polylines, whose first and last segment are separated by the padding (edgeDistance_extra_violated); edgeDistance_spec says what the distance is for all road edges, and edgeDistance_extra_iff exactly when a further one changes it"
  },
  {
   "property": "C52",
   "status": "proved",
   "theorems": [
    "Verif.Kinematics.speedValid_iff",
    "Verif.Kinematics.accelValid_iff",
    "Verif.Kinematics.valid_values",
    "Verif.Kinematics.speed_local",
    "Verif.Kinematics.linearSpeed_some",
    "Verif.Kinematics.linearAccel_some",
    "Verif.Kinematics.turn_some",
    "Verif.Kinematics.turnAccel_some",
    "Verif.Kinematics.validity_length",
    "Verif.Kinematics.validity_case",
    "Verif.Kinematics.validity_short_violated"
   ],
   "note": "for fewer than two steps the results have two steps (validity_short_violated); the metrics apply the mask to the log after the history has been cut off"
  },
  {
   "property": "C53",
   "status": "proved",
   "theorems": [
    "Verif.Interaction.nearest_spec",
    "Verif.Interaction.nearest_some",
    "Verif.Interaction.nearest_order",
    "Verif.Interaction.nearest_example",
    "Verif.Interaction.pairDistance_self"
   ],
   "note": "with no other valid object, exact arithmetic gives the large constant minus the smaller side of the box, which 32 bit floats round to the constant"
  },
  {
   "property": "C54",
   "status": "proved",
   "theorems": [
    "Verif.Estimators.histogramEstimate_spec",
    "Verif.Estimators.histScore_prob",
    "Verif.Estimators.histProb_sum",
    "Verif.Estimators.histProb_le",
    "Verif.Estimators.histScore_perm",
    "Verif.Estimators.kernelDensityEstimate_spec",
    "Verif.Estimators.kdeProb_mem",
    "Verif.Estimators.bernoulliEstimate_spec",
    "Verif.Estimators.boolProb_mem",
    "Verif.Estimators.boolProb_sum",
    "Verif.Estimators.timeseries_spec",
    "Verif.Estimators.timeseries_local",
    "Verif.Estimators.mem_pool",
    "Verif.Estimators.pool_length",
    "Verif.Estimators.scenarioLevel_spec",
    "Verif.Estimators.scenarioLevel_pool",
    "Verif.Estimators.timeseries_ok",
    "Verif.Estimators.timeseries_case"
   ],
   "note": "finite samples and a positive pseudocount; without a pseudocount an empty bin scores minus infinity (histScore_empty); the NaN handling of tfp is not modelled"
  },
  {
   "property": "C55",
   "status": "proved",
   "theorems": [
    "Verif.SimMetrics.metametric_mem",
    "Verif.SimMetrics.metametric_formula",
    "Verif.SimMetrics.toBuckets_formula",
    "Verif.SimMetrics.weighted_spec",
    "Verif.SimMetrics.metametric_buckets",
    "Verif.SimMetrics.bucket_spec",
    "Verif.SimMetrics.bucket_mem",
    "Verif.SimMetrics.bucket_none",
    "Verif.SimMetrics.toBuckets_ok",
    "Verif.SimMetrics.toBuckets_spec",
    "Verif.SimMetrics.aggregate_spec",
    "Verif.SimMetrics.aggregate_ok",
    "Verif.SimMetrics.aggregate_metametric",
    "Verif.SimMetrics.shipped_weights",
    "Verif.SimMetrics.aggregate_first_violated"
   ],
   "note": "a field that is not set in the first message is dropped from the aggregation (aggregate_first_violated); scenario messages produced by this library set all fields"
  },
  {
   "property": "C56",
   "status": "proved",
   "theorems": [
    "Verif.Boxes.transformPoint_spec",
    "Verif.Boxes.transformPoint_back",
    "Verif.Boxes.transformPoint_trans",
    "Verif.Boxes.rigid_isPose",
    "Verif.Boxes.rotation_orthogonal",
    "Verif.Boxes.rotation_det",
    "Verif.Boxes.rotation_action",
    "Verif.Boxes.isWithin3d_spec",
    "Verif.Boxes.isWithin2d_spec",
    "Verif.Boxes.within_footprint",
    "Verif.Boxes.within_move",
    "Verif.Boxes.transformBox_within",
    "Verif.Boxes.transformBox_back",
    "Verif.Boxes.numPointsInBox_spec",
    "Verif.Boxes.convexHull_corners",
    "Verif.Boxes.corners_order",
    "Verif.Boxes.transformBox_pitched_violated",
    "Verif.Boxes.example_turned"
   ],
   "note": "real arithmetic; boxes are upright: transform_box does not keep membership when the frames differ by pitch or roll"
  },
  {
   "property": "C57",
   "status": "partial",
   "theorems": [
    "Verif.DeltaEncoder.compress_overwrites_input",
    "Verif.DeltaEncoder.compress_input_unchanged_violated",
    "Verif.DeltaEncoder.compress_input_unchanged_partial",
    "Verif.DeltaEncoder.compress_unchanged_iff",
    "Verif.DeltaEncoder.compress_fraction",
    "Verif.DeltaEncoder.compress_fine_iff",
    "Verif.DeltaEncoder.compress_fine_case"
   ],
   "note": "false of the code: the array passed in is overwritten with the rounded values (delta_encoder.py:63-67)"
  },
  {
   "property": "C58",
   "status": "partial",
   "theorems": [
    "Verif.Mot.details_lengths_partial",
    "Verif.Mot.details_match_counts_violated",
    "Verif.Mot.details_agree_iff"
   ],
   "note": "false of the code: unmatched predictions in no-label zones and ground truths above the level are listed but not counted"
  },
  {
   "property": "C59",
   "status": "partial",
   "theorems": [
    "Verif.Measure.tracking_metrics_best_partial",
    "Verif.Measure.toTrkMetrics_cases",
    "Verif.Measure.tracking_metrics_best_violated",
    "Verif.Measure.tracking_metrics_best_iff",
    "Verif.Measure.tracking_metrics_else",
    "Verif.Measure.tracking_metrics_else_case"
   ],
   "note": "false of the code when no cutoff has positive accuracy: everything but the object count is reported as 0; tracking_metrics_best_iff: exactly then"
  },
  {
   "property": "C60",
   "status": "partial",
   "theorems": [
    "Verif.Mot.switches_counted_partial",
    "Verif.Mot.every_switch_counted_violated",
    "Verif.Mot.only_switches_counted_violated"
   ],
   "note": "false of the code once a prediction id moves between ground truths; proved when it does not"
  },
  {
   "property": "C61",
   "status": "partial",
   "theorems": [
    "Verif.Detection.low_heading_is_false_match_violated",
    "Verif.Detection.low_heading_not_true_positive_partial",
    "Verif.Detection.low_heading_vanishes",
    "Verif.Detection.low_heading_case"
   ],
   "note": "false of the code: detection_metrics.cc:73 skips the pair, so both objects vanish from all counts; low_heading_vanishes says exactly how: FPs and FNs stay as they are, TPs lose these pairs"
  },
  {
   "property": "C62",
   "status": "proved",
   "theorems": [
    "Verif.Breakdown.breakdownNames_eq",
    "Verif.Breakdown.pyBreakdownNames_eq",
    "Verif.Breakdown.nameOf_injective",
    "Verif.Breakdown.breakdownNames_nodup",
    "Verif.Breakdown.create_numShards",
    "Verif.Breakdown.allNames_nodup"
   ],
   "note": ""
  },
  {
   "property": "C63",
   "status": "partial",
   "theorems": [
    "Verif.Breakdown.own_shard_matched_velocity",
    "Verif.Breakdown.own_shard_matched_camera_partial",
    "Verif.Breakdown.own_shard_matched_camera_violated",
    "Verif.Breakdown.own_shard_matched_camera_iff",
    "Verif.Breakdown.leftObject_case"
   ],
   "note": "false of the camera breakdown: the shard follows most_visible_camera_name, the matching shards only the position; own_shard_matched_camera_iff says exactly for which objects it holds"
  },
  {
   "property": "C64",
   "status": "partial",
   "theorems": [
    "Verif.Pca.bucketed_codes_partial",
    "Verif.Pca.bucketed_zero_column_violated",
    "Verif.Pca.bucketed_iff",
    "Verif.Pca.bucketed_case"
   ],
   "note": "proved for every column with a non-zero value; for a column of zeros the factor is 0"
  },
  {
   "property": "C65",
   "status": "proved",
   "theorems": [
    "Verif.Pca.decode_encode",
    "Verif.Pca.decode_encode_orthonormal",
    "Verif.Pca.project_eq",
    "Verif.Pca.tile_error",
    "Verif.Pca.channelMean_spec"
   ],
   "note": "exact arithmetic; for fit_pca see C228"
  },
  {
   "property": "C66",
   "status": "proved",
   "theorems": [
    "Verif.Component.Shipped.fromDict_merged",
    "Verif.Component.unflatten_of_agrees"
   ],
   "note": "missing nested objects come back as objects of Nones, see C06"
  },
  {
   "property": "C67",
   "status": "proved",
   "theorems": [
    "Verif.AABox.overlap_iff",
    "Verif.AABox.overlap_symm",
    "Verif.AABox.inside_iff",
    "Verif.AABox.distanceSqr_spec",
    "Verif.AABox.union_spec",
    "Verif.AABox.intersectionArea_spec",
    "Verif.AABox.collectOverlaps_spec",
    "Verif.AABox.build_empty"
   ],
   "note": "Building a tree without boxes reads outside of a vector (build_empty)."
  },
  {
   "property": "C68",
   "status": "proved",
   "theorems": [
    "Verif.Iou.affinity_spec",
    "Verif.Iou.affinity_bounds",
    "Verif.Iou.affinity_lateral",
    "Verif.Iou.rangeAligned_spec",
    "Verif.Iou.restrictedAligned_spec",
    "Verif.Iou.aligned_closer",
    "Verif.Iou.aligned_shape",
    "Verif.Iou.letIoU_spec",
    "Verif.Iou.letIoU_rejects",
    "Verif.Iou.centerAligned_violated"
   ],
   "note": "Centre alignment does not move the height, contrary to its documentation (centerAligned_violated)."
  },
  {
   "property": "C69",
   "status": "partial",
   "theorems": [
    "Verif.Motion.minDisplacement_moved",
    "Verif.Motion.missRate_moved",
    "Verif.Motion.classifyTrack_moved",
    "Verif.Motion.mapStats_moved",
    "Verif.Motion.hasOverlap_moved_partial",
    "Verif.Motion.stepStats_moved_partial",
    "Verif.Motion.hasOverlap_moved_violated",
    "Verif.Motion.meet_frameFree",
    "Verif.Motion.example_moving",
    "Verif.Motion.boxesOverlap_frame",
    "Verif.Motion.hasOverlap_polygon_partial",
    "Verif.Motion.stepStats_polygon_partial"
   ],
   "note": "false of the overlap of a predicted object that does not move: its heading is taken to be zero in every frame; everything else is proved; the overlap test is that of the polygon routine, for boxes with sizes"
  },
  {
   "property": "C70",
   "status": "proved",
   "theorems": [
    "Verif.Motion.classify_spec",
    "Verif.Motion.relative_exists",
    "Verif.Motion.hasType_unique",
    "Verif.Motion.classify_mirror",
    "Verif.Motion.classifyTrack_moved",
    "Verif.Motion.example_left_turn"
   ],
   "note": "real arithmetic"
  },
  {
   "property": "C71",
   "status": "partial",
   "theorems": [
    "Verif.Pose.laserSize_partial",
    "Verif.Pose.laserSize_swapped_violated",
    "Verif.Pose.laserSize_iff"
   ],
   "note": "false of boxes converted from a Box3d, whose width and length are swapped; proved for label boxes"
  },
  {
   "property": "C72",
   "status": "partial",
   "theorems": [
    "Verif.Pose.meanErrorMatching_partial",
    "Verif.Pose.meanErrorMatching_candidate",
    "Verif.Pose.meanErrorMatching_pem_violated"
   ],
   "note": "false as documented; the association minimises the sum of the mean errors of its pairs plus the penalty for each ground truth left alone"
  },
  {
   "property": "C73",
   "status": "proved",
   "theorems": [
    "Verif.Pose.oks_bounds",
    "Verif.Pose.oks_spec",
    "Verif.Pose.oks_perfect",
    "Verif.Pose.oks_anti",
    "Verif.Pose.oks_surrogate",
    "Verif.Pose.oksPoint_spec",
    "Verif.Pose.boxScale_spec",
    "Verif.Pose.oks_flat",
    "Verif.Pose.pck_mono",
    "Verif.Pose.tensorsFromPoints_spec",
    "Verif.Pose.selectSubset_spec",
    "Verif.Pose.selectSubset_error"
   ],
   "note": "real arithmetic; a box without volume gives similarity 1 to every prediction"
  },
  {
   "property": "C74",
   "status": "proved",
   "theorems": [
    "Verif.Pose.matchingIds_near",
    "Verif.Pose.nearVisible_iff",
    "Verif.Pose.stage1_optimal"
   ],
   "note": "the box is taken with the opposite heading (C35)"
  },
  {
   "property": "C75",
   "status": "proved",
   "theorems": [
    "Verif.RangeImage.depthImage_spec",
    "Verif.RangeImage.norm3_rigid",
    "Verif.RangeImage.selected_iff",
    "Verif.RangeImage.depthImage_case"
   ],
   "note": "real arithmetic"
  },
  {
   "property": "C76",
   "status": "proved",
   "theorems": [
    "Verif.RangeImage.inclinations_spec",
    "Verif.RangeImage.inclinations_strict"
   ],
   "note": "real arithmetic"
  },
  {
   "property": "C77",
   "status": "partial",
   "theorems": [
    "Verif.Road.redLight_spec",
    "Verif.Road.redLight_iff",
    "Verif.Road.redLight_order",
    "Verif.Road.redLight_straight_partial",
    "Verif.Road.redLight_case",
    "Verif.Road.redLight_invalid_violated"
   ],
   "note": "the rule of the code is proved exactly; it fails the property since the step before need not be valid (redLight_invalid_violated) and the lane is found by the wrong distance (C49)"
  },
  {
   "property": "C78",
   "status": "partial",
   "theorems": [
    "Verif.Road.edgeDistance_convex_partial",
    "Verif.Road.square_convex",
    "Verif.Road.edgeDistance_partial",
    "Verif.Road.edgeDistance_iff",
    "Verif.Road.signAt_beside",
    "Verif.Road.signAt_corner_before",
    "Verif.Road.signAt_corner_after",
    "Verif.Road.edgeDistance_extension_violated",
    "Verif.Road.roadEdge_spec",
    "Verif.Road.roadEdge_invalid",
    "Verif.Road.roadEdge_iff",
    "Verif.Road.bottom_spec"
   ],
   "note": "proved for closed convex road edges everywhere, and for the side of the nearest segment in general; fails on the extension of a road edge beyond its end, where the distance is 0 (edgeDistance_extension_violated)"
  },
  {
   "property": "C79",
   "status": "proved",
   "theorems": [
    "Verif.Kinematics.turn_turns",
    "Verif.Kinematics.turn_steady",
    "Verif.Kinematics.turn_bounds",
    "Verif.Kinematics.speed_steady",
    "Verif.Kinematics.turn_case",
    "Verif.SimMetrics.shipped_bool"
   ],
   "note": "real arithmetic"
  },
  {
   "property": "C80",
   "status": "partial",
   "theorems": [
    "Verif.SimMetrics.sumScores_cases",
    "Verif.SimMetrics.averageValid_negInf",
    "Verif.SimMetrics.averageValid_nan",
    "Verif.SimMetrics.timeLikelihood_zero",
    "Verif.SimMetrics.timeLikelihood_zero_example",
    "Verif.SimMetrics.compute_spec",
    "Verif.SimMetrics.compute_mem_partial",
    "Verif.SimMetrics.timeLikelihood_spec",
    "Verif.SimMetrics.timeLikelihood_mem",
    "Verif.SimMetrics.anyLikelihood_spec",
    "Verif.SimMetrics.anyLikelihood_mem",
    "Verif.SimMetrics.geoMean_between",
    "Verif.SimMetrics.rate_spec",
    "Verif.SimMetrics.minError_spec",
    "Verif.SimMetrics.minError_le",
    "Verif.SimMetrics.shipped_good",
    "Verif.SimMetrics.compute_case",
    "Verif.SimMetrics.compute_vehicle_violated",
    "Verif.SimMetrics.compute_vehicle_case"
   ],
   "note": "proved when some object has three valid steps two apart and some evaluated vehicle a valid step; without a valid vehicle the time to collision likelihood and the meta-metric are NaN (compute_vehicle_violated)"
  },
  {
   "property": "C81",
   "status": "partial",
   "theorems": [
    "Verif.Kinematics.averageDisplacement_spec",
    "Verif.Kinematics.averageDisplacement_partial",
    "Verif.Kinematics.averageDisplacement_violated",
    "Verif.Kinematics.averageDisplacement_iff"
   ],
   "note": "zero exactly for agreement is proved; the mean is taken over the history too, where the error is zero by construction, so that the value is too small by the share of valid steps in the future"
  },
  {
   "property": "C82",
   "status": "proved",
   "theorems": [
    "Verif.Interaction.pairDistance_spec",
    "Verif.Interaction.pairDistance_meet",
    "Verif.Interaction.pairDistance_collision",
    "Verif.Interaction.pairDistance_comm",
    "Verif.Interaction.pairDistance_congr",
    "Verif.Interaction.pairDistance_half_turn",
    "Verif.Interaction.pairDistance_self",
    "Verif.Interaction.pairDistance_example"
   ],
   "note": "rounding factor below 1 and positive sizes; the documented factor 1 gives NaN edges"
  },
  {
   "property": "C83",
   "status": "partial",
   "theorems": [
    "Verif.Occupancy.renderOccupancy_spec",
    "Verif.Occupancy.sdc_spec",
    "Verif.Occupancy.renderOccupancy_some",
    "Verif.Occupancy.occupied_box",
    "Verif.Occupancy.box_occupied_partial",
    "Verif.Occupancy.box_occupied_violated",
    "Verif.Occupancy.spacing_car",
    "Verif.Occupancy.observed_max_occluded",
    "Verif.Occupancy.not_observed_occluded",
    "Verif.Occupancy.observed_violated",
    "Verif.Occupancy.renderOccupancy_moved",
    "Verif.Occupancy.renderFlow_moved",
    "Verif.Occupancy.renderRoadgraph_spec"
   ],
   "note": "boxes are filled if the diagonal between samples is shorter than a cell; with the default configuration a vehicle of 20 metres has holes (box_occupied_violated); an agent seen in the past but not now counts as observed, contrary to the documentation (observed_violated)"
  },
  {
   "property": "C84",
   "status": "proved",
   "theorems": [
    "Verif.Occupancy.renderFlow_spec",
    "Verif.Occupancy.renderFlow_some",
    "Verif.Occupancy.flow_occupied",
    "Verif.Occupancy.flow_bounds_x",
    "Verif.Occupancy.flow_bounds_y",
    "Verif.Occupancy.flow_still",
    "Verif.Occupancy.mem_displacements",
    "Verif.Occupancy.waypointGrids_example"
   ],
   "note": ""
  },
  {
   "property": "C85",
   "status": "partial",
   "theorems": [
    "Verif.Occupancy.waypointGrids_spec",
    "Verif.Occupancy.waypointGrids_flow",
    "Verif.Occupancy.waypointGrids_origin",
    "Verif.Occupancy.waypointGrids_none",
    "Verif.Occupancy.timestepGrids_spec",
    "Verif.Occupancy.timestepGrids_ok",
    "Verif.Occupancy.flowAt_cumulative",
    "Verif.Occupancy.flowAt_mean_partial",
    "Verif.Occupancy.flowAt_mean_violated",
    "Verif.Occupancy.agentTrail_spec",
    "Verif.Occupancy.agentTrail_fades",
    "Verif.Occupancy.waypointGrids_example",
    "Verif.Occupancy.flowAt_mean_iff",
    "Verif.Occupancy.flowAt_mean_iff_case"
   ],
   "note": "accumulated flow averages the two directions separately over their non-zero values and is not the mean of the flows (flowAt_mean_violated)"
  },
  {
   "property": "C86",
   "status": "partial",
   "theorems": [
    "Verif.Occupancy.softIou_spec",
    "Verif.Occupancy.softIou_binary",
    "Verif.Occupancy.flowEpe_eq",
    "Verif.Occupancy.flowEpe_zero",
    "Verif.Occupancy.flowEpe_still",
    "Verif.Occupancy.metricsOf_spec_partial",
    "Verif.Occupancy.hasFlow_iff",
    "Verif.Occupancy.meanOf_range",
    "Verif.Occupancy.metricsOf_example",
    "Verif.Occupancy.metrics_violated"
   ],
   "note": "as shipped the function raises NotImplementedError for every input with a way point, since flow warping is left out of the open source version (metrics_violated); the rest is proved for the computation around it, with the area under the curve and the warped grids as parameters"
  },
  {
   "property": "C87",
   "status": "proved",
   "theorems": [
    "Verif.Conversion.conversion_road",
    "Verif.Conversion.road_spec",
    "Verif.Conversion.ranked_spec",
    "Verif.Conversion.sampling_unique",
    "Verif.Conversion.normalized_spec",
    "Verif.Conversion.code_injective",
    "Verif.Conversion.road_counters",
    "Verif.Conversion.exSuccess"
   ],
   "note": "source spacing positive and polygons with vertices, see C93"
  },
  {
   "property": "C88",
   "status": "proved",
   "theorems": [
    "Verif.Conversion.featureSamples_spec",
    "Verif.Conversion.sampling_unique",
    "Verif.Conversion.onCurve_vertex",
    "Verif.Conversion.onCurve_unique",
    "Verif.Conversion.catmullRom_ends",
    "Verif.Conversion.catmullRom_tangents",
    "Verif.Conversion.inner_multiple",
    "Verif.Conversion.polyline_first",
    "Verif.Conversion.polyline_last",
    "Verif.Conversion.onCurve_straight",
    "Verif.Conversion.sampling_rigid",
    "Verif.Conversion.directions_rigid",
    "Verif.Conversion.rigid_example"
   ],
   "note": ""
  },
  {
   "property": "C89",
   "status": "partial",
   "theorems": [
    "Verif.Conversion.polygonSamples_spec",
    "Verif.Conversion.polygon_gaps_partial",
    "Verif.Conversion.polygon_vertices",
    "Verif.Conversion.polygon_outline",
    "Verif.Conversion.side_gaps",
    "Verif.Conversion.polygon_spacing_violated",
    "Verif.Conversion.side_spacing_iff",
    "Verif.Conversion.side_spacing_iff_case"
   ],
   "note": "the gaps of a side are even and below twice the spacing, but not the spacing: the number of samples is rounded down (polygon_spacing_violated)"
  },
  {
   "property": "C90",
   "status": "partial",
   "theorems": [
    "Verif.Conversion.conversion_agents",
    "Verif.Conversion.agents_spec",
    "Verif.Conversion.stepsOf_length",
    "Verif.Conversion.stepsOf_all",
    "Verif.Conversion.micros_close",
    "Verif.Conversion.micros_exact_partial",
    "Verif.Conversion.micros_violated",
    "Verif.Conversion.exSuccess",
    "Verif.Conversion.micros_iff",
    "Verif.Conversion.micros_iff_case",
    "Verif.Conversion.state_counters"
   ],
   "note": "time stamps can be a microsecond short, since they pass a 32 bit float and are cut (micros_violated)"
  },
  {
   "property": "C91",
   "status": "partial",
   "theorems": [
    "Verif.Conversion.conversion_agents",
    "Verif.Conversion.modeledAgents_spec",
    "Verif.Conversion.objectsOfInterest_spec",
    "Verif.Conversion.difficulty_spec",
    "Verif.Conversion.contextLt_iff",
    "Verif.Conversion.mergeSort_isSort",
    "Verif.Conversion.sdc_included_partial",
    "Verif.Conversion.conversion_sdc_violated",
    "Verif.Conversion.exSuccess"
   ],
   "note": "the vehicle itself is included if it is valid now, alone at its place and there is room (sdc_included_partial); otherwise it may be left out (conversion_sdc_violated)"
  },
  {
   "property": "C92",
   "status": "partial",
   "theorems": [
    "Verif.Conversion.conversion_lights",
    "Verif.Conversion.light_id_exact_partial",
    "Verif.Conversion.light_id_violated",
    "Verif.Conversion.light_counters_partial",
    "Verif.Conversion.light_counters_violated",
    "Verif.Conversion.light_id_iff",
    "Verif.Conversion.light_counters_exact",
    "Verif.Conversion.light_counters_iff"
   ],
   "note": "ids above 2^24 are rounded, because a conditional expression makes them floats (light_id_violated); the padding counter falls when there are too many lights (light_counters_violated)"
  },
  {
   "property": "C93",
   "status": "partial",
   "theorems": [
    "Verif.Conversion.conversion_outcome_partial",
    "Verif.Conversion.conversion_id",
    "Verif.Conversion.exFit",
    "Verif.Conversion.exConsistent",
    "Verif.Conversion.exSuccess",
    "Verif.Conversion.conversion_index_violated",
    "Verif.Conversion.conversion_short_violated",
    "Verif.Conversion.conversion_interest_violated",
    "Verif.Conversion.conversion_room_violated",
    "Verif.Conversion.conversion_polygon_violated"
   ],
   "note": "proved for the scenarios and configurations that meet what the code takes for granted; each of the other theorems shows a crash of a scenario that passes the validation"
  },
  {
   "property": "C94",
   "status": "partial",
   "theorems": [
    "Verif.Polygon.convex_intersection_partial",
    "Verif.Polygon.intersectionArea_eq",
    "Verif.Polygon.convex_area",
    "Verif.Polygon.exists_isRing",
    "Verif.Polygon.ofPoints_eq",
    "Verif.Polygon.pentagon_convex",
    "Verif.Polygon.pentagon_spaced",
    "Verif.Polygon.vertices_spec",
    "Verif.Polygon.region_eq_hull",
    "Verif.Polygon.polygon_area",
    "Verif.Iou.general_example",
    "Verif.Iou.iou_opposite_violated"
   ],
   "note": "proved for polygons in general position (no vertex of one on the outline of the other); the statement fails for sides that overlap in opposite directions (iou_opposite_violated); other degenerate positions are covered only for boxes whose headings differ by right angles (C96, C222)"
  },
  {
   "property": "C95",
   "status": "partial",
   "theorems": [
    "Verif.Iou.polygonArea_eq",
    "Verif.Iou.iou_2d_exact_partial",
    "Verif.Iou.iou_3d_exact_partial",
    "Verif.Iou.general_example",
    "Verif.Iou.iou_2d_exact_example",
    "Verif.Iou.iou_opposite_violated",
    "Verif.Iou.iou_symm_violated"
   ],
   "note": "proved in general position; boxes with opposite headings that share a line can have computed IoU 0 although one contains the other, depending on the order (iou_opposite_violated, iou_symm_violated); all positions of boxes whose headings differ by right angles are decided in C96 and C222"
  },
  {
   "property": "C96",
   "status": "proved",
   "theorems": [
    "Verif.Iou.polygonArea_aligned",
    "Verif.Iou.iou_2d_aligned",
    "Verif.Iou.iou_3d_aligned",
    "Verif.Iou.iou_self",
    "Verif.Iou.iou_self_3d",
    "Verif.Iou.iou_2d_aligned_example"
   ],
   "note": "all order types of the eight side coordinates are shown equivalent to 169 integer cases, which the kernel evaluates"
  },
  {
   "property": "C97",
   "status": "partial",
   "theorems": [
    "Verif.Motion.boxesOverlap_partial",
    "Verif.Motion.boxesOverlap_meet",
    "Verif.Motion.boxesOverlap_example",
    "Verif.Motion.boxesOverlap_violated"
   ],
   "note": "proved in general position and for equal headings; boxes of opposite headings can be missed (boxesOverlap_violated; C222 says exactly which)"
  },
  {
   "property": "C98",
   "status": "proved",
   "theorems": [
    "Verif.Polygon.convex_inside",
    "Verif.Polygon.pentagon_convex",
    "Verif.Polygon.pointInside_iff",
    "Verif.Polygon.region_eq_hull",
    "Verif.Polygon.maybeIntersect_sound",
    "Verif.Polygon.build_boxed",
    "Verif.Polygon.ofBox_ring"
   ],
   "note": ""
  },
  {
   "property": "C99",
   "status": "partial",
   "theorems": [
    "Verif.Polygon.segmentIntersection_spec_partial",
    "Verif.Polygon.segmentIntersection_isSome",
    "Verif.Polygon.segmentIntersection_example",
    "Verif.Polygon.segmentIntersection_point_violated",
    "Verif.Polygon.segmentIntersection_point",
    "Verif.Polygon.segmentIntersection_point_iff",
    "Verif.Polygon.segmentIntersection_point_case"
   ],
   "note": "the first segment must not be a point; otherwise points off the second segment are reported (segmentIntersection_point_violated; segmentIntersection_point_iff says exactly which)"
  },
  {
   "property": "C100",
   "status": "proved",
   "theorems": [
    "Verif.Polygon.transform_build",
    "Verif.Polygon.transform_isSome",
    "Verif.Polygon.transform_inside",
    "Verif.Polygon.transform_area",
    "Verif.Polygon.transform_boxed",
    "Verif.Polygon.shift_build",
    "Verif.Polygon.transform_example",
    "Verif.Polygon.transform_intersection"
   ],
   "note": "Whole property, over the real numbers, for convex polygons in any position."
  },
  {
   "property": "C101",
   "status": "partial",
   "theorems": [
    "Verif.Polygon.isConvexHull_convex",
    "Verif.Polygon.isConvexHull_partial",
    "Verif.Polygon.isConvexHull_quad",
    "Verif.Polygon.isConvexHull_example",
    "Verif.Polygon.isConvexHull_violated"
   ],
   "note": "convex outlines are accepted; accepted outlines turn to one side only and are convex if they have three or four points, but longer ones may wind around twice (isConvexHull_violated)"
  },
  {
   "property": "C102",
   "status": "partial",
   "theorems": [
    "Verif.Segment.query_spec_partial",
    "Verif.Segment.built_sound",
    "Verif.Segment.heading_unique",
    "Verif.Segment.concurrent_query",
    "Verif.Segment.no_deadlock",
    "Verif.Segment.built_example",
    "Verif.Segment.concurrent_example",
    "Verif.Segment.heading_history_violated",
    "Verif.Segment.length_negative_violated"
   ],
   "note": "the heading of a segment that is a point depends on whether it was asked for before a rotation (heading_history_violated); negative lengths are kept (length_negative_violated); the memory model is: relaxed loads return any value stored so far"
  },
  {
   "property": "C103",
   "status": "partial",
   "theorems": [
    "Verif.Segment.distSqrToPoint_spec",
    "Verif.Segment.distSqrToPoint_eq_zero",
    "Verif.Segment.intersect_partial",
    "Verif.Segment.intersectOrCoincide_partial",
    "Verif.Segment.mightIntersect_spec",
    "Verif.Segment.sideOfPoint_spec",
    "Verif.Segment.sample_spec",
    "Verif.Segment.samplePoints_spec",
    "Verif.Segment.intersect_example",
    "Verif.Segment.intersect_violated",
    "Verif.Segment.mightIntersect_violated",
    "Verif.Segment.intersect_common_iff",
    "Verif.Segment.intersectOrCoincide_common_iff",
    "Verif.Segment.common_case"
   ],
   "note": "short segments that cross are missed when the cross product of their directions is below 1e-10 (intersect_violated; intersect_common_iff: exactly then); MightIntersect rejects some segments for which Intersect finds a point within its tolerance (mightIntersect_violated)"
  },
  {
   "property": "C104",
   "status": "partial",
   "theorems": [
    "Verif.Segment.corners_spec",
    "Verif.Segment.ofCenter_corners",
    "Verif.Segment.ofCorner_partial",
    "Verif.Segment.ofCorners_spec",
    "Verif.Segment.corners_move",
    "Verif.Segment.setSize_spec",
    "Verif.Segment.ofCorner_example",
    "Verif.Segment.ofCorner_violated",
    "Verif.Segment.setSize_violated",
    "Verif.Segment.ofCorner_thin",
    "Verif.Segment.ofCorner_iff"
   ],
   "note": "boxes of length zero lose the direction of their width (ofCorner_violated, setSize_violated); ofCorner_iff says exactly when the corner is kept"
  },
  {
   "property": "C105",
   "status": "partial",
   "theorems": [
    "Verif.ExactFloat.canonicalize_spec",
    "Verif.ExactFloat.represents_self",
    "Verif.ExactFloat.represents_zero",
    "Verif.ExactFloat.val_injective",
    "Verif.ExactFloat.exponents_fit",
    "Verif.ExactFloat.ofDouble_spec",
    "Verif.ExactFloat.ofDouble_exact",
    "Verif.ExactFloat.ofInt_spec_partial",
    "Verif.ExactFloat.add_spec",
    "Verif.ExactFloat.sub_spec",
    "Verif.ExactFloat.neg_spec",
    "Verif.ExactFloat.mul_spec",
    "Verif.ExactFloat.add_comm_spec",
    "Verif.ExactFloat.add_special",
    "Verif.ExactFloat.sub_special",
    "Verif.ExactFloat.mul_special",
    "Verif.ExactFloat.closed",
    "Verif.ExactFloat.add_example",
    "Verif.ExactFloat.ofInt_violated",
    "Verif.ExactFloat.Represents.unique",
    "Verif.ExactFloat.ofInt_iff",
    "Verif.ExactFloat.ofInt_least"
   ],
   "note": "arithmetic is proved in full; the conversion from int is wrong for the least int, whose absolute value overflows (ofInt_violated)"
  },
  {
   "property": "C106",
   "status": "proved",
   "theorems": [
    "Verif.ExactFloat.unsignedLess_spec",
    "Verif.ExactFloat.lt_spec",
    "Verif.ExactFloat.eq_spec",
    "Verif.ExactFloat.order_spec",
    "Verif.ExactFloat.nan_unordered",
    "Verif.ExactFloat.fmax_spec",
    "Verif.ExactFloat.fmin_spec",
    "Verif.ExactFloat.fdim_spec",
    "Verif.ExactFloat.abs_spec",
    "Verif.ExactFloat.lt_example"
   ],
   "note": "over the extended reals: unordered NaN apart, < and == are those of the values"
  },
  {
   "property": "C107",
   "status": "proved",
   "theorems": [
    "Verif.ExactFloat.roundToPowerOf2_spec",
    "Verif.ExactFloat.roundToPowerOf2_special",
    "Verif.ExactFloat.integer_spec",
    "Verif.ExactFloat.round_integer",
    "Verif.ExactFloat.toInteger_spec",
    "Verif.ExactFloat.toInteger_special",
    "Verif.ExactFloat.roundToMaxPrec_spec",
    "Verif.ExactFloat.round_example",
    "Verif.ExactFloat.Rounds.unique",
    "Verif.ExactFloat.Rounds.int"
   ],
   "note": "Rounds specifies a mode; Rounds.unique: it selects one integer"
  },
  {
   "property": "C108",
   "status": "partial",
   "theorems": [
    "Verif.ExactFloat.ldexp_spec_partial",
    "Verif.ExactFloat.ldexp_wrong",
    "Verif.ExactFloat.ldexp_special",
    "Verif.ExactFloat.scalbln_spec_partial",
    "Verif.ExactFloat.frexp_spec_partial",
    "Verif.ExactFloat.ilogb_spec",
    "Verif.ExactFloat.logb_special",
    "Verif.ExactFloat.halfEven_spec",
    "Verif.ExactFloat.toDouble_spec_partial",
    "Verif.ExactFloat.toDouble_special",
    "Verif.ExactFloat.double_roundtrip",
    "Verif.ExactFloat.ldexp_violated",
    "Verif.ExactFloat.frexp_violated",
    "Verif.ExactFloat.toDouble_violated"
   ],
   "note": "ldexp bounds the shift of a number above 1 at the wrong place and returns a wrong number instead of a smaller one (ldexp_violated; ldexp_wrong says which), and frexp follows for exponents above half the largest (frexp_violated); ToDouble rounds twice when the result is subnormal and the number has more than 53 bits (toDouble_violated)"
  },
  {
   "property": "C109",
   "status": "partial",
   "theorems": [
    "Verif.ExactFloat.decimal_error",
    "Verif.ExactFloat.decimal_nearest_partial",
    "Verif.ExactFloat.string_denotes",
    "Verif.ExactFloat.string_special",
    "Verif.ExactFloat.string_exponent",
    "Verif.ExactFloat.string_injective",
    "Verif.ExactFloat.unique_string",
    "Verif.ExactFloat.string_example",
    "Verif.ExactFloat.exponent_example",
    "Verif.ExactFloat.decimal_violated"
   ],
   "note": "integers with more digits than asked for are not always rounded to the nearest: 26 with one digit is printed as 20 (decimal_violated); decimal_nearest_partial covers all numbers that are not integers and integers with enough digits; decimal_error bounds the error of all by one unit; uniqueness is proved in full"
  },
  {
   "property": "C110",
   "status": "proved",
   "theorems": [
    "Verif.Camera.directionToImage_spec",
    "Verif.Camera.directionToImage_outside",
    "Verif.Camera.undistStep_fixed",
    "Verif.Camera.step_contract",
    "Verif.Camera.distort_injective",
    "Verif.Camera.imageToDirection_spec",
    "Verif.Camera.distort_lipschitz",
    "Verif.Camera.pixel_roundtrip",
    "Verif.Camera.imageToDirection_pinhole",
    "Verif.Camera.frontCamera_mild",
    "Verif.Camera.lens_example"
   ],
   "note": "Mild bounds the distortion coefficients so that the iteration contracts; the camera of the tests is mild up to a radius of 0.6 with factor 1/4 (frontCamera_mild)"
  },
  {
   "property": "C111",
   "status": "proved",
   "theorems": [
    "Verif.Camera.worldOf_bijective",
    "Verif.Camera.rigid_dist",
    "Verif.Camera.prepare_global_total",
    "Verif.Camera.worldToImage_global",
    "Verif.Camera.imageToWorld_global",
    "Verif.Camera.world_roundtrip",
    "Verif.Camera.pinhole_roundtrip",
    "Verif.Camera.global_invariant",
    "Verif.Camera.rigid_example"
   ],
   "note": "every world point is worldOf of one point of the camera frame (worldOf_bijective)"
  },
  {
   "property": "C112",
   "status": "partial",
   "theorems": [
    "Verif.Camera.pixelTime_spec",
    "Verif.Camera.pixelTime_none",
    "Verif.Camera.pixelTime_range",
    "Verif.Camera.pixelOffset_spec",
    "Verif.Camera.prepare_rolling",
    "Verif.Camera.motion_tangent_partial",
    "Verif.Camera.motion_example",
    "Verif.Camera.time_example",
    "Verif.Camera.omega_frame_violated",
    "Verif.Camera.omega_frame_iff",
    "Verif.Camera.omega_frame_case"
   ],
   "note": "times in full; the motion holds for an angular velocity in the frame of the vehicle; dataset.proto documents the global frame, for which it fails (omega_frame_violated)"
  },
  {
   "property": "C113",
   "status": "partial",
   "theorems": [
    "Verif.Camera.rolling_ok",
    "Verif.Camera.rolling_at_rest",
    "Verif.Camera.residual_pinhole",
    "Verif.Camera.jacobian_partial",
    "Verif.Camera.rolling_converges_partial",
    "Verif.Camera.seen_unique",
    "Verif.Camera.rolling_imageToWorld",
    "Verif.Camera.rolling_invariant",
    "Verif.Camera.dcm_transpose",
    "Verif.Camera.gentle_example",
    "Verif.Camera.jacobian_violated",
    "Verif.Camera.lost_point_violated",
    "Verif.Camera.unwritten_violated"
   ],
   "note": "the change of the depth enters the derivative with the wrong sign (jacobian_violated), so that a point in view can be reported as behind the camera (lost_point_violated) and outputs may stay unwritten (unwritten_violated); for cameras that do not turn the iteration converges under stated bounds on the motion (rolling_converges_partial); cameras that turn: validity, frame invariance and the error of the transpose (dcm_transpose) only"
  },
  {
   "property": "C114",
   "status": "proved",
   "theorems": [
    "Verif.CameraOps.parse_encode",
    "Verif.CameraOps.worldToImageOp_spec",
    "Verif.CameraOps.worldToImageMovingOp_spec",
    "Verif.CameraOps.moving_zero",
    "Verif.CameraOps.imageToWorldOp_spec",
    "Verif.CameraOps.ops_example",
    "Verif.CameraOps.float_times_violated"
   ],
   "note": "float_times_violated: with float32 tensors the times of an image coincide, since they are rounded to multiples of 128 seconds"
  },
  {
   "property": "C115",
   "status": "partial",
   "theorems": [
    "Verif.AccSum.accSum_accurate",
    "Verif.AccSum.accSum_sign",
    "Verif.AccSum.terms_sum",
    "Verif.AccSum.cross_near_zero",
    "Verif.AccSum.cross_sign_partial",
    "Verif.AccSum.cross_sign_grid",
    "Verif.AccSum.quick_sign_violated",
    "Verif.AccSum.roundNearest_spec"
   ],
   "note": "accSum_accurate: the sum, with its bound on the number of passes, for all inputs; the sign of the cross product is exact if the differences of coordinates are representable (cross_sign_partial), in particular for coordinates on a common grid of 52 bits (cross_sign_grid); it is false in general: the quick result is taken above a fixed threshold although differences were rounded (quick_sign_violated); overflow and underflow of the products are excluded by hypothesis"
  },
  {
   "property": "C116",
   "status": "proved",
   "theorems": [
    "Verif.Ops.parse_spec",
    "Verif.Ops.parse_refuses",
    "Verif.Ops.boxByDimension_refuses",
    "Verif.Ops.RowsAre.unique",
    "Verif.Ops.frames_spec",
    "Verif.Ops.frames_count",
    "Verif.Ops.rename_frames",
    "Verif.Ops.interleave_frames",
    "Verif.OpsTight.desiredDof_spec",
    "Verif.OpsTight.desiredDof_fields"
   ],
   "note": "all tensors; the maps are lists of entries, their order does not matter"
  },
  {
   "property": "C117",
   "status": "proved",
   "theorems": [
    "Verif.Ops.runPool_eq",
    "Verif.Ops.schedule_irrelevant",
    "Verif.Ops.op_is_library",
    "Verif.Ops.frames_perm"
   ],
   "note": "frames_perm for frames on which the matcher and the generators keep their promises; the tasks of the pool are steps that run one after the other in any order, each writes its own slot"
  },
  {
   "property": "C118",
   "status": "partial",
   "theorems": [
    "Verif.Ops.state_then_result",
    "Verif.Ops.states_accumulate_partial",
    "Verif.Ops.split_frame_violated",
    "Verif.Ops.estimated_cutoffs_violated"
   ],
   "note": "states_accumulate_partial: for configurations with cutoffs and batches without a common frame; false if a frame is spread over two batches (split_frame_violated) or the cutoffs are to be estimated (estimated_cutoffs_violated); floats are exact, so that the limit of 2^24 for counters in 32 bit floats is not seen"
  },
  {
   "property": "C119",
   "status": "partial",
   "theorems": [
    "Verif.Ops.evaluator_history_partial",
    "Verif.Ops.accumulate_rows",
    "Verif.Ops.recallAt_spec",
    "Verif.Ops.failed_update_partial",
    "Verif.Ops.failed_update_violated",
    "Verif.Ops.mixed_speeds_violated",
    "Verif.Ops.evaluator_any_history",
    "Verif.Ops.evaluator_history_iff",
    "Verif.Ops.evaluator_history_case"
   ],
   "note": "evaluator_history_partial for histories in which every update has all required keys; an update that raises because of the ground truths has stored the predictions (failed_update_violated); speeds that only some batches have make the evaluation fail (mixed_speeds_violated)"
  },
  {
   "property": "C120",
   "status": "proved",
   "theorems": [
    "Verif.Tracking.scene_spec",
    "Verif.Tracking.scene_empty",
    "Verif.Tracking.scene_shape",
    "Verif.Tracking.scene_totals",
    "Verif.Tracking.metrics_spec",
    "Verif.OpsTight.tracking_cutoffs"
   ],
   "note": "for scenes on which each generator puts each object in a shard within its range, ids of ground truths are unique within a frame and the matcher returns a consistent matching; matchers of this kind are the subject of C10 and C11"
  },
  {
   "property": "C121",
   "status": "partial",
   "theorems": [
    "Verif.Tracking.speed_rule_partial",
    "Verif.Tracking.speed_rule_first_frame_violated",
    "Verif.Tracking.speed_rule_overwrites_violated",
    "Verif.Tracking.argmin_spec",
    "Verif.Tracking.estimateSpeed_spec",
    "Verif.Tracking.prepared_spec",
    "Verif.Tracking.speed_rule_iff",
    "Verif.Tracking.speed_rule_iff_case"
   ],
   "note": "true if all predictions have speeds, or none has and the first frame has a prediction; otherwise false: the code decides by the first prediction of the first frame"
  },
  {
   "property": "C122",
   "status": "proved",
   "theorems": [
    "Verif.OpsTracking.sequences_parse",
    "Verif.OpsTracking.sequences_refuse",
    "Verif.OpsTracking.SeqRowsAre.unique",
    "Verif.OpsTracking.scenes_spec",
    "Verif.OpsTracking.scenes_nonempty",
    "Verif.OpsTracking.scenes_count",
    "Verif.OpsTracking.interleave_sequences",
    "Verif.OpsTracking.rename_sequences",
    "Verif.OpsTracking.renumber_frames"
   ],
   "note": "ids of sequences are any linear order; ids of objects are the numbers instead of their decimal strings"
  },
  {
   "property": "C123",
   "status": "partial",
   "theorems": [
    "Verif.OpsTracking.tracking_op_is_library",
    "Verif.OpsTracking.pool_slots",
    "Verif.OpsTracking.sequences_perm_partial",
    "Verif.OpsTracking.sequence_name_violated",
    "Verif.OpsTracking.variables_hold_rows",
    "Verif.OpsTracking.no_rows",
    "Verif.OpsTight.tracking_output_rows"
   ],
   "note": "sequences_perm_partial: for configurations with cutoffs, and with the iteration orders of the hash containers moved along with the sequences; false if cutoffs are estimated (sequence_name_violated)"
  },
  {
   "property": "C124",
   "status": "partial",
   "theorems": [
    "Verif.OpsTracking.difficulty_ignored",
    "Verif.OpsTracking.difficulty_violated"
   ],
   "note": "false of the code: the difficulty has no effect on any output (difficulty_ignored), because it is stored as the detection difficulty"
  },
  {
   "property": "C125",
   "status": "proved",
   "theorems": [
    "Verif.OpsMotion.dims_iff",
    "Verif.OpsMotion.parse_spec",
    "Verif.OpsMotion.parse_distinct",
    "Verif.OpsMotion.required_track",
    "Verif.OpsMotion.parse_refuses",
    "Verif.OpsMotion.demo_scenario"
   ],
   "note": "the last dimension of the trajectories is not checked; object types are values of the enumeration"
  },
  {
   "property": "C126",
   "status": "partial",
   "theorems": [
    "Verif.OpsMotion.agent_partial",
    "Verif.OpsMotion.unseen_agent",
    "Verif.OpsMotion.agent_violated",
    "Verif.OpsMotion.reads_inside_iff",
    "Verif.OpsMotion.reads_violated"
   ],
   "note": "false of the code: predictions for agents without a valid step count for the first track (agent_violated), and object ids are used as column numbers (reads_violated)"
  },
  {
   "property": "C127",
   "status": "proved",
   "theorems": [
    "Verif.OpsMotion.op_is_library",
    "Verif.OpsMotion.op_refuses",
    "Verif.OpsMotion.rows_spec",
    "Verif.OpsMotion.scenario_evaluates",
    "Verif.OpsMotion.op_order",
    "Verif.OpsMotion.demo_rows"
   ],
   "note": "scores are not negative and measured steps are less than the number of steps, as for C24 to C26"
  },
  {
   "property": "C128",
   "status": "partial",
   "theorems": [
    "Verif.OpsMotion.updates_order",
    "Verif.OpsMotion.default_partial",
    "Verif.OpsMotion.default_scenarios_nodup",
    "Verif.OpsMotion.default_objects_safe",
    "Verif.OpsMotion.default_violated",
    "Verif.OpsMotion.default_wrong_track",
    "Verif.OpsMotion.shapes_partial",
    "Verif.OpsMotion.shapes_violated",
    "Verif.OpsTight.assertions_iff"
   ],
   "note": "false of the code without scenario ids and more than one update (default_violated), and if a group has fewer agents than the ground truth (shapes_violated)"
  },
  {
   "property": "C129",
   "status": "proved",
   "theorems": [
    "Verif.OpsMatch.matchOp_spec",
    "Verif.OpsMatch.zero_box_unmatched",
    "Verif.OpsMatch.matchOp_refuses",
    "Verif.OpsMatch.demo_match",
    "Verif.OpsMatch.zero_threshold_matches_apart",
    "Verif.OpsTight.python_threshold"
   ],
   "note": "the similarity is any function with values in [0, 1]; with a threshold of zero boxes that do not overlap are matched (zero_threshold_matches_apart)"
  },
  {
   "property": "C130",
   "status": "partial",
   "theorems": [
    "Verif.OpsMatch.kinds_partial",
    "Verif.OpsMatch.score_first_aborts",
    "Verif.OpsMatch.kinds_violated",
    "Verif.OpsMatch.score_first_iff"
   ],
   "note": "false of the code: the score-first matcher aborts on every non-empty batch (kinds_violated)"
  },
  {
   "property": "C131",
   "status": "proved",
   "theorems": [
    "Verif.OpsMatch.batch_elements",
    "Verif.OpsMatch.padding_invariant",
    "Verif.OpsMatch.python_rank_two",
    "Verif.OpsMatch.python_rank_three"
   ],
   "note": ""
  },
  {
   "property": "C132",
   "status": "partial",
   "theorems": [
    "Verif.Submit.create_spec_partial",
    "Verif.Submit.shards_perm",
    "Verif.Submit.sanitise_cleaned",
    "Verif.Submit.sanitise_idem",
    "Verif.Submit.sanitise_kept",
    "Verif.Submit.last_byte_violated",
    "Verif.Submit.no_predictions_violated"
   ],
   "note": "false of the code for a file whose last byte is 10 without a line feed having been added (last_byte_violated) and for a file without predictions (no_predictions_violated); proved for all other files"
  },
  {
   "property": "C133",
   "status": "partial",
   "theorems": [
    "Verif.Submit.kept_finite_partial",
    "Verif.Submit.sanitise_cleaned",
    "Verif.Submit.nan_score_violated",
    "Verif.Submit.create_requires",
    "Verif.Submit.kept_score_iff",
    "Verif.Submit.kept_intended_iff"
   ],
   "note": "false of the code for scores that are not numbers, which are kept (nan_score_violated); proved for finite scores"
  },
  {
   "property": "C134",
   "status": "partial",
   "theorems": [
    "Verif.Submit.read_objects",
    "Verif.Submit.read_submission_partial",
    "Verif.Submit.read_submission_lost",
    "Verif.Submit.read_missing",
    "Verif.Submit.read_submission_violated",
    "Verif.Wire.polygon_accepts",
    "Verif.Wire.zone_accepts",
    "Verif.Wire.objects_accepts",
    "Verif.Wire.label_accepts",
    "Verif.Wire.flat_accepts",
    "Verif.Wire.keypoint_accepts",
    "Verif.Wire.polygon_case"
   ],
   "note": "false of the code for submissions whose name happens to be the encoding of a message, such as PointPillar, which are read as if they were empty (read_submission_violated); the names with that effect are characterised"
  },
  {
   "property": "C135",
   "status": "proved",
   "theorems": [
    "Verif.Submit.compare_sound"
   ],
   "note": "for thresholds above zero and IoUs in [0, 1]; the twentieth is compared exactly"
  },
  {
   "property": "C136",
   "status": "partial",
   "theorems": [
    "Verif.Submit.compare_complete_partial",
    "Verif.Submit.compare_complete_violated"
   ],
   "note": "false of the code if boxes of a type in a frame overlap as much as the threshold (compare_complete_violated); proved otherwise"
  },
  {
   "property": "C137",
   "status": "partial",
   "theorems": [
    "Verif.Submit.extra_detections_partial",
    "Verif.Submit.missing_detections_violated"
   ],
   "note": "false of the code for frames without detections in the latency results, and for empty latency results (missing_detections_violated); proved for the other frames"
  },
  {
   "property": "C138",
   "status": "partial",
   "theorems": [
    "Verif.Submit.honest_accepted_partial",
    "Verif.Submit.honest_accepted_violated",
    "Verif.Submit.makeFile_rows",
    "Verif.Submit.row_3d",
    "Verif.Submit.row_2d",
    "Verif.Submit.listing_order",
    "Verif.Submit.evaluate_checked",
    "Verif.Submit.two_dimensions_one_input",
    "Verif.Submit.left_out_iff",
    "Verif.Submit.lowest_thin"
   ],
   "note": "false of the code for extents below 0.01, which one program drops and the other keeps (honest_accepted_violated); proved for three-dimensional boxes with extents of at least 0.01 that can be told apart"
  },
  {
   "property": "C139",
   "status": "proved",
   "theorems": [
    "Verif.Tools.detKey_iff",
    "Verif.Tools.examples_frames",
    "Verif.Tools.examples_count",
    "Verif.Tools.interleaving_irrelevant"
   ],
   "note": "Whole property; the map from frames to objects is modelled as the list of its entries."
  },
  {
   "property": "C140",
   "status": "partial",
   "theorems": [
    "Verif.Tools.prepare_spec_partial",
    "Verif.Tools.prepareLet_stops",
    "Verif.Tools.prepareLet_spec",
    "Verif.Tools.unpopulated_violated"
   ],
   "note": "Proved but for the last clause, which is false: a ground truth without camera is dropped, one without synchronised box is evaluated with an empty box at the origin."
  },
  {
   "property": "C141",
   "status": "partial",
   "theorems": [
    "Verif.Tools.detection_prints_partial",
    "Verif.Tools.detectionLet_prints",
    "Verif.Tools.unparsed",
    "Verif.Tools.no_objects_violated",
    "Verif.Tools.unknown_camera_violated",
    "Verif.Tools.cutoffs_spec",
    "Verif.Tools.items_spec"
   ],
   "note": "Proved for files with at least one evaluated object and, for the camera only program, the five cameras of the breakdown. Without objects the program prints a mismatch; with camera UNKNOWN or a rear camera it aborts."
  },
  {
   "property": "C142",
   "status": "proved",
   "theorems": [
    "Verif.Tools.scenes_spec",
    "Verif.Tools.scenes_nonempty",
    "Verif.Tools.tracking_interleaving",
    "Verif.Tools.tracking_prints",
    "Verif.Tools.cameras_are_merged",
    "Verif.Tools.cutoffs_spec",
    "Verif.Tools.items_spec"
   ],
   "note": "Whole property for files with at least one object. Objects of different cameras are in one frame, unlike in the detection program."
  },
  {
   "property": "C143",
   "status": "partial",
   "theorems": [
    "Verif.Tools.segmentation_partial",
    "Verif.Tools.last_frame_counts",
    "Verif.Tools.other_laser",
    "Verif.Tools.uneven_returns_violated"
   ],
   "note": "An equivalence, but for frames without prediction whose returns have different numbers of points, where the program aborts."
  },
  {
   "property": "C144",
   "status": "partial",
   "theorems": [
    "Verif.Rays.intersect_spec",
    "Verif.Rays.intersect_bent",
    "Verif.Rays.intersect_near_partial",
    "Verif.Rays.parameter_is_distance",
    "Verif.Rays.inside_first_negative",
    "Verif.Rays.parallel_violated"
   ],
   "note": "Exact if no component of the direction is zero. The code replaces zeros by 1e-10; then the result is exact for that direction, and for the given one up to 1e-10 of the distance. So a ray beside a face, nearer than that, is reported as a hit (parallel_violated)."
  },
  {
   "property": "C145",
   "status": "partial",
   "theorems": [
    "Verif.Rays.miss_negative_violated",
    "Verif.Rays.miss_negative_partial",
    "Verif.Rays.both_negative_iff",
    "Verif.Rays.both_negative_case",
    "Verif.Rays.both_negative_behind"
   ],
   "note": "False: a ray that passes beside the box has positive parameters. Proved for rays that point away from the box; both_negative_iff says exactly when both are negative."
  },
  {
   "property": "C146",
   "status": "partial",
   "theorems": [
    "Verif.Rays.parallel_violated",
    "Verif.Rays.intersect_near_partial"
   ],
   "note": "False: a ray in the plane of one face is missed, in that of the opposite face is hit, and a ray just outside is hit; the error is bounded."
  },
  {
   "property": "C147",
   "status": "proved",
   "theorems": [
    "Verif.Rays.box_coordinates",
    "Verif.Rays.box_distance",
    "Verif.Rays.oriented_hit",
    "Verif.Rays.box_direction_length",
    "Verif.Rays.frame_rays",
    "Verif.Rays.frame_distance",
    "Verif.Rays.frame_back"
   ],
   "note": "Whole property, for poses that are rigid."
  },
  {
   "property": "C148",
   "status": "partial",
   "theorems": [
    "Verif.Clouds.parse_spec",
    "Verif.Clouds.parse_total_partial",
    "Verif.Clouds.parse_total_violated",
    "Verif.Clouds.parse_iff"
   ],
   "note": "The contents are proved. The last sentence is false: a laser with only a second return, or with labels of the second return only, raises."
  },
  {
   "property": "C149",
   "status": "proved",
   "theorems": [
    "Verif.Clouds.frame_clouds",
    "Verif.Clouds.pixels_unique"
   ],
   "note": "Whole property; numbers are real numbers."
  },
  {
   "property": "C150",
   "status": "partial",
   "theorems": [
    "Verif.Clouds.clouds_exist_partial",
    "Verif.Clouds.top_needed",
    "Verif.Clouds.clouds_exist_violated",
    "Verif.Clouds.clouds_exist_iff"
   ],
   "note": "False for frames without the first return of TOP, which have no clouds of any laser; proved for the others."
  },
  {
   "property": "C151",
   "status": "proved",
   "theorems": [
    "Verif.Clouds.versions_agree"
   ],
   "note": "Whole property, for frames whose empty returns have no projections either. The converse is false, see C150."
  },
  {
   "property": "C152",
   "status": "partial",
   "theorems": [
    "Verif.Clouds.side_agrees",
    "Verif.Clouds.top_agrees_partial",
    "Verif.Clouds.top_inclinations_violated"
   ],
   "note": "Proved but for the last clause: TOP without a list of inclinations raises."
  },
  {
   "property": "C153",
   "status": "partial",
   "theorems": [
    "Verif.Extract.laserBox_spec_partial",
    "Verif.Extract.laserBox_none",
    "Verif.Extract.laserBox_lossless",
    "Verif.Extract.laserBox_error",
    "Verif.Extract.syncedBox_spec",
    "Verif.Extract.syncedBox_none",
    "Verif.Extract.cameraBox_spec",
    "Verif.Extract.cameraBox_none",
    "Verif.Extract.laserBox_violated",
    "Verif.Extract.laserBox_error_iff",
    "Verif.Extract.laserBox_error_case"
   ],
   "note": "Proved but for the errors: fields that are missing are an AssertionError, and a camera of version 1 that version 2 does not have is a KeyError."
  },
  {
   "property": "C154",
   "status": "partial",
   "theorems": [
    "Verif.Extract.parseId_spec_partial",
    "Verif.Extract.parseId_error",
    "Verif.Extract.projectedBox_spec",
    "Verif.Extract.projectedBox_none",
    "Verif.Extract.parseId_violated"
   ],
   "note": "Proved for ids of 22 characters; other ids are a KeyError and never parsed as something else. The separator is not looked at."
  },
  {
   "property": "C155",
   "status": "proved",
   "theorems": [
    "Verif.Extract.keypoints_spec",
    "Verif.Extract.keypoints_none",
    "Verif.Extract.keypoints_error",
    "Verif.Extract.cameraKeypoints_spec",
    "Verif.Extract.laserKeypoints_spec"
   ],
   "note": "Whole property; a label with an empty list of keypoints has a component with empty columns."
  },
  {
   "property": "C156",
   "status": "proved",
   "theorems": [
    "Verif.Extract.laser_keys",
    "Verif.Extract.camera_keys",
    "Verif.Extract.projected_keys",
    "Verif.Extract.association_spec"
   ],
   "note": "Whole property, for labels with ids and for ids of projected boxes as in C154."
  },
  {
   "property": "C157",
   "status": "partial",
   "theorems": [
    "Verif.Extract.cameraImage_spec",
    "Verif.Extract.calibration_spec_partial",
    "Verif.Extract.calibration_error",
    "Verif.Extract.laserCalibration_spec",
    "Verif.Extract.stats_spec",
    "Verif.Extract.segLabel_spec",
    "Verif.Extract.vehiclePose_value",
    "Verif.Extract.vehiclePose_spec",
    "Verif.Extract.calibration_violated",
    "Verif.Extract.calibration_iff"
   ],
   "note": "Proved but for the last sentence: numbers of the intrinsic after the ninth are lost and fewer than nine are an IndexError."
  },
  {
   "property": "C158",
   "status": "proved",
   "theorems": [
    "Verif.SimFeatures.compute_spec",
    "Verif.SimFeatures.objAt_iff",
    "Verif.SimFeatures.cut_kinematic",
    "Verif.SimFeatures.roadEdges_spec",
    "Verif.SimFeatures.lanes_spec",
    "Verif.SimFeatures.entity_id",
    "Verif.SimFeatures.entity_len",
    "Verif.SimFeatures.compute_case"
   ],
   "note": "Whole property, over the real numbers, for every scene that has features; the distance to the nearest object is characterised for boxes as in C45 and the distances to lanes and edges as in C46 and C47."
  },
  {
   "property": "C159",
   "status": "partial",
   "theorems": [
    "Verif.SimFeatures.compute_order_partial",
    "Verif.SimFeatures.compute_time",
    "Verif.SimFeatures.compute_order_violated"
   ],
   "note": "Proved for all features but the times to collision, and for these if objects nearest in front of an evaluated one do not tie with different speeds; a scene with a tie has a time of 1.86 s in one order and 5 s in the other."
  },
  {
   "property": "C160",
   "status": "partial",
   "theorems": [
    "Verif.SimFeatures.compute_iff_partial",
    "Verif.SimFeatures.compute_missing",
    "Verif.SimFeatures.rollouts_unscored",
    "Verif.SimFeatures.rollouts_unscored_violated",
    "Verif.SimFeatures.drive_some"
   ],
   "note": "Which scenes have features is proved as an equivalence. Maps without a road edge of two points have none, and neither have scenarios with a track to be predicted that is not valid at the current step."
  },
  {
   "property": "C161",
   "status": "proved",
   "theorems": [
    "Verif.SimFeatures.rollouts_spec",
    "Verif.SimFeatures.rollouts_case"
   ],
   "note": "Whole property."
  },
  {
   "property": "C162",
   "status": "proved",
   "theorems": [
    "Verif.SimFeatures.logged_error",
    "Verif.SimFeatures.rollouts_case"
   ],
   "note": "Whole property; includes objects that are invalid in all scored steps."
  },
  {
   "property": "C163",
   "status": "proved",
   "theorems": [
    "Verif.Iou.computeIoU_move",
    "Verif.Iou.polygonArea_move",
    "Verif.Iou.computeIoU_move_aa",
    "Verif.Polygon.transform_intersection"
   ],
   "note": "Whole property, over the real numbers; TYPE_AA_2D has no headings and is not meant to be invariant (computeIoU_move_aa)."
  },
  {
   "property": "C164",
   "status": "proved",
   "theorems": [
    "Verif.Assets.sample_spec",
    "Verif.Assets.samples_spec",
    "Verif.Assets.decode_encode",
    "Verif.Assets.decode_encode_orthonormal"
   ],
   "note": "Whole property; floats are exact elements of an ordered field."
  },
  {
   "property": "C165",
   "status": "partial",
   "theorems": [
    "Verif.Assets.decode_encode_partial",
    "Verif.Assets.encode_refuses",
    "Verif.Assets.encode_small",
    "Verif.Assets.small_patch_violated",
    "Verif.Assets.encode_iff",
    "Verif.Assets.encode_case"
   ],
   "note": "False for patches so small that the padding to whole tiles would need more than a reflection: those are refused. Proved for all others."
  },
  {
   "property": "C166",
   "status": "proved",
   "theorems": [
    "Verif.CamSeg.augment_spec",
    "Verif.CamSeg.weight_spec",
    "Verif.CamSeg.bySequence_iff"
   ],
   "note": "Whole property; the metric object of deeplab2 is a parameter. A pixel with coverage 0 has weight 1e8, as is shown too."
  },
  {
   "property": "C167",
   "status": "proved",
   "theorems": [
    "Verif.CamSeg.aggregate_spec",
    "Verif.CamSeg.aggregate_perm",
    "Verif.CamSeg.aggregate_videos",
    "Verif.CamSeg.correct_adds"
   ],
   "note": "Whole property, for metric objects whose updates and merges add amounts (structure Adds, met by correct_adds); deeplab2 is not in the repository."
  },
  {
   "property": "C168",
   "status": "partial",
   "theorems": [
    "Verif.Examples.examplesEqual_iff",
    "Verif.Examples.examplesEqual_perm",
    "Verif.Examples.refl_iff",
    "Verif.Examples.symm_partial",
    "Verif.Examples.trans_tolerance",
    "Verif.Examples.examplesEqual_violated"
   ],
   "note": "False: integers compare as equal to a list of no floats, and not the other way round; an example with NaN differs from itself; a relative tolerance is taken of the second value. Proved otherwise."
  },
  {
   "property": "C169",
   "status": "partial",
   "theorems": [
    "Verif.Examples.addTokens_spec_partial",
    "Verif.Examples.embeddings_iff",
    "Verif.Examples.no_tokens_violated"
   ],
   "note": "An empty list of tokens gives an error; all else is proved."
  },
  {
   "property": "C170",
   "status": "partial",
   "theorems": [
    "Verif.FrameDict.toDict_spec_partial",
    "Verif.FrameDict.names_spec",
    "Verif.FrameDict.all_keys_nodup",
    "Verif.FrameDict.toDict_returns",
    "Verif.FrameDict.one_exists",
    "Verif.FrameDict.second_return_violated"
   ],
   "note": "Contents and keys are proved for every frame that has a dictionary. Frames with a calibrated laser without second return have none, although the clouds of their first return exist."
  },
  {
   "property": "C171",
   "status": "partial",
   "theorems": [
    "Verif.FrameDict.pose_timestamp_partial",
    "Verif.FrameDict.pose_timestamp_violated",
    "Verif.FrameDict.toF32_time"
   ],
   "note": "False for the time of the pose, which is rounded to float32: times of this decade are kept in steps of 128 s. The other times are kept; the error is bounded."
  },
  {
   "property": "C172",
   "status": "partial",
   "theorems": [
    "Verif.Wireframe.group_spec_partial",
    "Verif.Wireframe.group_violated"
   ],
   "note": "Contents are proved for all frames. False: an object without key points has an empty message of key points instead of none, without associated boxes the dictionary of cameras is None, and of two boxes in one camera only the last is kept."
  },
  {
   "property": "C173",
   "status": "partial",
   "theorems": [
    "Verif.Wireframe.wireframe_spec",
    "Verif.Wireframe.halves_cover",
    "Verif.Wireframe.wireframe_iff",
    "Verif.Wireframe.default_partial",
    "Verif.Wireframe.wireframe_violated"
   ],
   "note": "Contents are proved for all inputs. False for key points of the unspecified type, which raise, and for no key points, whose empty wireframe cannot be drawn."
  },
  {
   "property": "C174",
   "status": "partial",
   "theorems": [
    "Verif.Wireframe.crop_pixel",
    "Verif.Wireframe.crop_inside_partial",
    "Verif.Wireframe.crop_violated",
    "Verif.Wireframe.crop_iff",
    "Verif.Wireframe.crop_iff_case"
   ],
   "note": "The pixel is the same for all key points that stay inside. False: the last row and column of the image and the partly covered last pixels of the box are cut, and a box beside the image gives almost the whole image."
  },
  {
   "property": "C175",
   "status": "partial",
   "theorems": [
    "Verif.FlowVis.occupancy_formula",
    "Verif.FlowVis.occupancy_range",
    "Verif.FlowVis.occupancy_certain_partial",
    "Verif.FlowVis.occupancy_violated"
   ],
   "note": "False for uncertain classes, whose color is darkened by their own opacity: a pixel that may hold a vehicle is darker than one that does. Proved: the formula that holds, up to 4e-7, the range, and the property for occupancies 0 and 1."
  },
  {
   "property": "C176",
   "status": "proved",
   "theorems": [
    "Verif.FlowVis.toHsv_shows",
    "Verif.FlowVis.toHsv_scale",
    "Verif.FlowVis.toHsv_given",
    "Verif.FlowVis.toRgb_iff",
    "Verif.FlowVis.flow_formula",
    "Verif.FlowVis.flow_range",
    "Verif.FlowVis.flow_color_iff"
   ],
   "note": "Whole property over real numbers; hsv_to_rgb is modelled as the kernel of TensorFlow computes it."
  },
  {
   "property": "C177",
   "status": "partial",
   "theorems": [
    "Verif.Maps.plot_spec_partial",
    "Verif.Maps.no_point_lost",
    "Verif.Maps.double_yellow_violated",
    "Verif.Maps.plot_violated"
   ],
   "note": "False: solid double yellow lines are left out, stop signs are lines of one point and lanes are not wider since members of an enumeration are compared with numbers, and maps or polygons without points raise. Proved otherwise, for features with different identifiers."
  },
  {
   "property": "C178",
   "status": "partial",
   "theorems": [
    "Verif.Maps.bboxPatch_covers",
    "Verif.Maps.bboxPatch_iff",
    "Verif.Maps.removeAll_nil",
    "Verif.Maps.animate_spec",
    "Verif.Maps.animate_history",
    "Verif.Maps.addMap_spec_partial",
    "Verif.Maps.addMap_violated"
   ],
   "note": "Boxes and steps are proved entirely; a road edge or line without points raises."
  },
  {
   "property": "C179",
   "status": "partial",
   "theorems": [
    "Verif.Challenge.acceptable_example",
    "Verif.Challenge.convert_spec",
    "Verif.Challenge.validate_spec",
    "Verif.Challenge.convert_valid",
    "Verif.Challenge.convert_inj_partial",
    "Verif.Challenge.convert_inj_violated",
    "Verif.Challenge.convert_again_violated",
    "Verif.Challenge.validate_none_violated",
    "Verif.Challenge.single_metrics"
   ],
   "note": "False: an object without trajectories loses its id, a second conversion into the same result keeps the predictions of the first, and a prediction set with no joint prediction is valid. Proved: exactly what is accepted and what it becomes, and injectivity for objects with trajectories."
  },
  {
   "property": "C180",
   "status": "partial",
   "theorems": [
    "Verif.PoseMetrics.pck_spec",
    "Verif.PoseMetrics.pck_laws_partial",
    "Verif.PoseMetrics.pck_example",
    "Verif.PoseMetrics.pck_drop_violated"
   ],
   "note": "Values, range, monotonicity and independence of batches are proved; left out predictions do not count, so leaving out a wrong one raises the result."
  },
  {
   "property": "C181",
   "status": "partial",
   "theorems": [
    "Verif.PoseMetrics.ap_spec",
    "Verif.PoseMetrics.ap_laws",
    "Verif.PoseMetrics.ap_mean_partial",
    "Verif.PoseMetrics.ap_weighted_partial",
    "Verif.PoseMetrics.ap_batches_violated",
    "Verif.PoseMetrics.ap_perObject_violated",
    "Verif.PoseMetrics.ap_weights_violated"
   ],
   "note": "False: the average precision is a mean over batches, not over objects; weights per object are refused although documented; precisions with weights depend on the batches. Proved: the values for all histories without weights, and all of it for one batch."
  },
  {
   "property": "C182",
   "status": "proved",
   "theorems": [
    "Verif.PoseMetrics.visibility_spec",
    "Verif.PoseMetrics.visibility_laws",
    "Verif.PoseMetrics.visibility_example"
   ],
   "note": "Whole property; weights as the metric receives them."
  },
  {
   "property": "C183",
   "status": "partial",
   "theorems": [
    "Verif.PoseMetrics.combined_get",
    "Verif.PoseMetrics.combined_spec_partial",
    "Verif.PoseMetrics.key_unique",
    "Verif.PoseMetrics.fixed2_eq_iff",
    "Verif.PoseMetrics.default_ok",
    "Verif.PoseMetrics.default_names",
    "Verif.PoseMetrics.default_groups",
    "Verif.PoseMetrics.default_orders",
    "Verif.PoseMetrics.default_scales",
    "Verif.PoseMetrics.default_thresholds",
    "Verif.PoseMetrics.thresholds_violated",
    "Verif.PoseMetrics.subset_violated",
    "Verif.PoseMetrics.subset_weights_violated"
   ],
   "note": "False: thresholds that agree in two digits overwrite each other, subsets outside the order of the key points are accepted and raise at the first object, and weights of key points are not selected with the subset. Proved otherwise without weights, for subsets with different names and thresholds with different printed forms; these cover the default configurations."
  },
  {
   "property": "C184",
   "status": "partial",
   "theorems": [
    "Verif.SegView.colorMap_spec",
    "Verif.SegView.default_map",
    "Verif.SegView.default_colors",
    "Verif.SegView.semantic_spec",
    "Verif.SegView.width_one_violated",
    "Verif.SegView.green_eq",
    "Verif.SegView.instance_color_partial",
    "Verif.SegView.instance_is8",
    "Verif.SegView.offset_range",
    "Verif.SegView.instances_differ_partial",
    "Verif.SegView.instances_example",
    "Verif.SegView.clip_violated",
    "Verif.SegView.instances_violated",
    "Verif.SegView.panoptic_spec",
    "Verif.SegView.instances_same_iff",
    "Verif.SegView.instances_same_case"
   ],
   "note": "False: green wraps instead of being cut off, instances whose numbers differ by twice the amount share a color, one instance may look like none, and pictures of width one lose a dimension or raise. Proved: every pixel of every other picture, and different colors of instances whose numbers are closer."
  },
  {
   "property": "C185",
   "status": "partial",
   "theorems": [
    "Verif.SegView.load_spec",
    "Verif.SegView.load_partial",
    "Verif.SegView.load_more",
    "Verif.SegView.sequence_violated",
    "Verif.SegView.count_violated",
    "Verif.SegView.load_one_iff",
    "Verif.SegView.load_first_iff",
    "Verif.SegView.load_one_case"
   ],
   "note": "False: the last frame may be of another sequence, k = 0 gives one frame, and a frame without images raises. Proved: exactly what is chosen, and the property for data sets of one sequence."
  },
  {
   "property": "C186",
   "status": "partial",
   "theorems": [
    "Verif.PoseTensors.create_spec",
    "Verif.PoseTensors.create_points",
    "Verif.PoseTensors.create_boxes_partial",
    "Verif.PoseTensors.create_boxes_violated",
    "Verif.PoseTensors.no_points_violated",
    "Verif.PoseTensors.no_types_violated",
    "Verif.PoseTensors.create_subset",
    "Verif.PoseTensors.stackHeadings_spec",
    "Verif.PoseTensors.corners",
    "Verif.PoseTensors.create_boxes_iff"
   ],
   "note": "False: if only some predictions have boxes, boxes and key points of a row belong to different objects; objects of a frame without key points get rows; no types raises for any object. Proved: all key points, and the boxes if all or none of the objects have one."
  },
  {
   "property": "C187",
   "status": "partial",
   "theorems": [
    "Verif.LatencyExamples.translate_spec",
    "Verif.LatencyExamples.translate_pos",
    "Verif.LatencyExamples.runTf_spec",
    "Verif.LatencyExamples.tfBox_partial",
    "Verif.LatencyExamples.tfBox_exchanged",
    "Verif.LatencyExamples.tfBox_violated",
    "Verif.LatencyExamples.tfBox_outside_violated",
    "Verif.LatencyExamples.empty_violated",
    "Verif.LatencyExamples.runTorch_partial",
    "Verif.LatencyExamples.runTorch_violated",
    "Verif.LatencyExamples.torch_order_violated",
    "Verif.LatencyExamples.tfBox_iff",
    "Verif.LatencyExamples.torch_order_iff",
    "Verif.LatencyExamples.runTorch_iff"
   ],
   "note": "False: the TensorFlow example scales x by the height of the image and y by the width, the PyTorch example returns at most one detection and, with the corners in the order of torchvision, exchanges x and y; both raise without detections. Proved: selection and types, and the boxes of square images."
  },
  {
   "property": "C188",
   "status": "proved",
   "theorems": [
    "Verif.LatencyExamples.transform_spec",
    "Verif.LatencyExamples.transform_laws",
    "Verif.LatencyExamples.transform_scale",
    "Verif.LatencyExamples.combine_spec",
    "Verif.LatencyExamples.mem_valid",
    "Verif.LatencyExamples.combine_world"
   ],
   "note": "Whole property over the real numbers; poses are rigid, and transform_scale shows that this is needed."
  },
  {
   "property": "C189",
   "status": "proved",
   "theorems": [
    "Verif.LatencyExamples.processInputs_spec",
    "Verif.LatencyExamples.tanh_laws",
    "Verif.LatencyExamples.tanh_lt",
    "Verif.LatencyExamples.savedModel_spec",
    "Verif.LatencyExamples.mem_valid"
   ],
   "note": "Whole property over the real numbers."
  },
  {
   "property": "C190",
   "status": "proved",
   "theorems": [
    "Verif.OccTutorial.waypoint_spec",
    "Verif.OccTutorial.waypoint_join"
   ],
   "note": "Whole property."
  },
  {
   "property": "C191",
   "status": "proved",
   "theorems": [
    "Verif.OccTutorial.xe_spec",
    "Verif.OccTutorial.xe_nonneg",
    "Verif.OccTutorial.xe_mono",
    "Verif.OccTutorial.sigmoidXe_spec",
    "Verif.OccTutorial.occupancyFlowLoss_spec"
   ],
   "note": "Whole property over the real numbers."
  },
  {
   "property": "C192",
   "status": "partial",
   "theorems": [
    "Verif.OccTutorial.flowLoss_spec",
    "Verif.OccTutorial.meanL1_swap",
    "Verif.OccTutorial.trainedFlow_partial",
    "Verif.OccTutorial.zero_flow_violated",
    "Verif.OccTutorial.doubled_flow_violated",
    "Verif.OccTutorial.train_violated",
    "Verif.OccTutorial.train_partial",
    "Verif.OccTutorial.train_ignores_batch",
    "Verif.OccTutorial.trainedFlow_zero_iff"
   ],
   "note": "False: the arguments of the flow loss are exchanged, so it is the deviation where the prediction is not zero and predicting no flow costs nothing; it divides by half of the cells; the training step uses the truth of a global variable. Proved: what the loss is, and that it is the intended one up to the factor where both flows vanish in the same cells."
  },
  {
   "property": "C193",
   "status": "proved",
   "theorems": [
    "Verif.OccTutorial.roundHalfEvenR_abs",
    "Verif.OccTutorial.quantOcc_spec",
    "Verif.OccTutorial.quantFlow_spec",
    "Verif.OccTutorial.addWaypoints_spec",
    "Verif.OccTutorial.addWaypoints_some",
    "Verif.OccTutorial.predictShard_spec",
    "Verif.OccTutorial.applySigmoid_spec"
   ],
   "note": "Whole property over the real numbers."
  },
  {
   "property": "C194",
   "status": "partial",
   "theorems": [
    "Verif.SimTutorial.after_linear",
    "Verif.SimTutorial.rollout_spec",
    "Verif.SimTutorial.simulate_spec",
    "Verif.SimTutorial.Extrapolated.get",
    "Verif.SimTutorial.Extrapolated.heading",
    "Verif.SimTutorial.Extrapolated.linear",
    "Verif.SimTutorial.Extrapolated.diverse_partial",
    "Verif.SimTutorial.diverse_violated",
    "Verif.SimTutorial.maxAction_spec",
    "Verif.SimTutorial.Extrapolated.same_iff",
    "Verif.SimTutorial.diverse_iff",
    "Verif.SimTutorial.diverse_case"
   ],
   "note": "False: the noise is scaled by the signed maximum of the velocities, which is zero if some agents stand and others move in negative directions; then all rollouts are the same. Proved: everything else, and diversity where the maximum is not zero."
  },
  {
   "property": "C195",
   "status": "proved",
   "theorems": [
    "Verif.SimTutorial.sceneOf_spec",
    "Verif.SimTutorial.sceneOf_error",
    "Verif.SimTutorial.rolloutsOf_spec",
    "Verif.SimTutorial.rolloutsOf_valid",
    "Verif.SimTutorial.simulate_valid"
   ],
   "note": "Whole property."
  },
  {
   "property": "C196",
   "status": "partial",
   "theorems": [
    "Verif.SimTutorial.strip_partial",
    "Verif.SimTutorial.strip_secret",
    "Verif.SimTutorial.strip_violated"
   ],
   "note": "False: the history that is kept is that of the first track; if this is not the autonomous vehicle, another agent's history leaks and its own is lost. Proved: nothing but the history of the first track leaks."
  },
  {
   "property": "C197",
   "status": "partial",
   "theorems": [
    "Verif.SimTutorial.numAgents_spec",
    "Verif.SimTutorial.generate_partial",
    "Verif.SimTutorial.sizeOf_spec",
    "Verif.SimTutorial.generate_origin_violated",
    "Verif.SimTutorial.genSceneOf_spec",
    "Verif.SimTutorial.genRolloutsOf_spec",
    "Verif.SimTutorial.generate_valid",
    "Verif.SimTutorial.types_violated",
    "Verif.SimTutorial.sizes_violated"
   ],
   "note": "False: without a valid first track agents are placed around the origin; types are never written, though the evaluation reads them; sizes have as many steps as the log, 11 in the test set; types other than the three have no size. Proved: everything else."
  },
  {
   "property": "C198",
   "status": "partial",
   "theorems": [
    "Verif.SemsegTutorial.toLabels_spec",
    "Verif.SemsegTutorial.toLabels_total_partial",
    "Verif.SemsegTutorial.second_violated",
    "Verif.SemsegTutorial.toLabels_iff"
   ],
   "note": "False: only first returns have labels, asking for those of second returns raises. Proved: alignment wherever there is an answer, and an answer for first returns."
  },
  {
   "property": "C199",
   "status": "proved",
   "theorems": [
    "Verif.SemsegTutorial.compress_round",
    "Verif.SemsegTutorial.compress_int",
    "Verif.SemsegTutorial.compress_float",
    "Verif.SemsegTutorial.indexing_spec",
    "Verif.SemsegTutorial.paint_at",
    "Verif.SemsegTutorial.painted_spec",
    "Verif.SemsegTutorial.dummy_spec",
    "Verif.SemsegTutorial.dummy_total"
   ],
   "note": "Whole property; zlib is a parameter that is undone by its inverse."
  },
  {
   "property": "C200",
   "status": "partial",
   "theorems": [
    "Verif.SemsegTutorial.validation_partial",
    "Verif.SemsegTutorial.validation_violated",
    "Verif.SemsegTutorial.testing_violated",
    "Verif.SemsegTutorial.validation_right_iff",
    "Verif.SemsegTutorial.validation_right_case"
   ],
   "note": "False: frames are left out if the top laser is not the first; the list of frames of the test set is compared as a tuple with lists, so nothing is ever chosen. Proved: the choice for validation if the top laser is first."
  },
  {
   "property": "C201",
   "status": "partial",
   "theorems": [
    "Verif.E2ETutorial.pick_partial",
    "Verif.E2ETutorial.front3_partial",
    "Verif.E2ETutorial.front3_violated",
    "Verif.E2ETutorial.drawn_spec",
    "Verif.E2ETutorial.drawn_violated",
    "Verif.E2ETutorial.front3_iff",
    "Verif.E2ETutorial.front3_iff_case"
   ],
   "note": "False: calibrations are taken by the position of the image; way points that are not visible are drawn in a corner. Proved: the right pictures, and the right calibrations if both lists have the same order; visible way points are drawn where they are."
  },
  {
   "property": "C202",
   "status": "proved",
   "theorems": [
    "Verif.E2ETutorial.shards_spec",
    "Verif.E2ETutorial.shards_zero"
   ],
   "note": "Whole property."
  },
  {
   "property": "C203",
   "status": "partial",
   "theorems": [
    "Verif.E2ETutorial.averageDistance_partial",
    "Verif.E2ETutorial.averageDistance_mean",
    "Verif.E2ETutorial.averageDistance_zero",
    "Verif.E2ETutorial.single_step_violated",
    "Verif.E2ETutorial.single_truth_violated",
    "Verif.E2ETutorial.dict_spec",
    "Verif.E2ETutorial.ades_spec",
    "Verif.E2ETutorial.ades_missing",
    "Verif.E2ETutorial.initialSpeeds_partial",
    "Verif.E2ETutorial.initialSpeeds_violated",
    "Verif.E2ETutorial.rated_spec",
    "Verif.E2ETutorial.initialSpeeds_iff"
   ],
   "note": "False: trajectories of one way point are broadcast; with a single truth the sum is given rather than the mean; initial speeds are those of a global variable. Proved: everything else."
  },
  {
   "property": "C204",
   "status": "proved",
   "theorems": [
    "Verif.CameraTutorial.makeObjects_spec",
    "Verif.CameraTutorial.makeObjects_total",
    "Verif.CameraTutorial.makeObjects_ids",
    "Verif.CameraTutorial.submit_spec",
    "Verif.CameraTutorial.submit_perm",
    "Verif.CameraTutorial.everyNth_length",
    "Verif.CameraTutorial.submit_balanced"
   ],
   "note": "Whole property."
  },
  {
   "property": "C205",
   "status": "partial",
   "theorems": [
    "Verif.CameraTutorial.parse_partial",
    "Verif.CameraTutorial.frames_violated",
    "Verif.CameraTutorial.frames_iff"
   ],
   "note": "False: frames are told apart by time only, so objects of different contexts are compared. Proved: everything else."
  },
  {
   "property": "C206",
   "status": "partial",
   "theorems": [
    "Verif.CameraTutorial.rectOf_spec",
    "Verif.CameraTutorial.rectOf_drawn",
    "Verif.CameraTutorial.rects_spec",
    "Verif.CameraTutorial.hidden_corner_violated",
    "Verif.CameraTutorial.wireframe_partial",
    "Verif.CameraTutorial.wireframe_violated",
    "Verif.CameraTutorial.rectOf_iff"
   ],
   "note": "False: nothing is drawn if one corner cannot be projected, and edges that leave the image are bent rather than cut. Proved: the rectangles, if all corners can be projected, and the lines, if all corners are in the image."
  },
  {
   "property": "C207",
   "status": "partial",
   "theorems": [
    "Verif.PvpsTutorial.collect_partial",
    "Verif.PvpsTutorial.collect_total",
    "Verif.PvpsTutorial.collect_violated",
    "Verif.PvpsTutorial.ordered_spec",
    "Verif.PvpsTutorial.front_violated",
    "Verif.PvpsTutorial.ungroup_partial",
    "Verif.PvpsTutorial.ungroup_violated",
    "Verif.PvpsTutorial.collect_iff",
    "Verif.PvpsTutorial.collect_three"
   ],
   "note": "False: a frame of another sequence is collected; the label decoded as that of the front camera is that of the front left camera; a row is split by a global variable. Proved: everything else."
  },
  {
   "property": "C208",
   "status": "proved",
   "theorems": [
    "Verif.PvpsTutorial.pad_spec",
    "Verif.PvpsTutorial.strip_spec",
    "Verif.PvpsTutorial.strip_some",
    "Verif.PvpsTutorial.panorama_spec",
    "Verif.PvpsTutorial.groups_spec"
   ],
   "note": "Whole property."
  },
  {
   "property": "C209",
   "status": "partial",
   "theorems": [
    "Verif.PvpsTutorial.generate_spec",
    "Verif.PvpsTutorial.contexts_spec",
    "Verif.PvpsTutorial.saveName_spec",
    "Verif.PvpsTutorial.saveName_violated",
    "Verif.PvpsTutorial.saveAll_partial",
    "Verif.PvpsTutorial.saveAll_inj",
    "Verif.PvpsTutorial.saveAll_violated",
    "Verif.PvpsTutorial.saveAll_iff"
   ],
   "note": "False: a second run raises because the folder is not empty, and data with another ending give a submission with the name of the data. Proved: everything else, for names of contexts without points."
  },
  {
   "property": "C210",
   "status": "partial",
   "theorems": [
    "Verif.MotionTutorial.viewport_spec",
    "Verif.MotionTutorial.viewport_some",
    "Verif.MotionTutorial.picture_agents",
    "Verif.MotionTutorial.pictures_spec_partial",
    "Verif.MotionTutorial.road_violated",
    "Verif.MotionTutorial.animated_violated",
    "Verif.MotionTutorial.animated_iff",
    "Verif.MotionTutorial.road_iff"
   ],
   "note": "False: samples of the road that are not valid are drawn, and only the first half of the pictures is shown in the animation. Proved: everything else."
  },
  {
   "property": "C211",
   "status": "partial",
   "theorems": [
    "Verif.MotionTutorial.loss_partial",
    "Verif.MotionTutorial.loss_zero",
    "Verif.MotionTutorial.loss_violated",
    "Verif.MotionTutorial.input_violated",
    "Verif.MotionTutorial.seen_iff"
   ],
   "note": "False: the sum of errors is divided by the number of all steps of all objects, and validity is not given to the network. Proved: the value of the loss and when it is zero."
  },
  {
   "property": "C212",
   "status": "partial",
   "theorems": [
    "Verif.MotionTutorial.subsample_spec",
    "Verif.MotionTutorial.epochs_partial",
    "Verif.MotionTutorial.epochs_some",
    "Verif.MotionTutorial.epochs_violated",
    "Verif.MotionTutorial.seen_violated",
    "Verif.MotionTutorial.epochs_some_iff",
    "Verif.MotionTutorial.epochs_right_iff"
   ],
   "note": "False: metrics are never reset, so those of later epochs have those of earlier ones; twice as many samples are reported as were seen. Proved: the steps evaluated and the metrics of the first epoch."
  },
  {
   "property": "C213",
   "status": "partial",
   "theorems": [
    "Verif.AssetTutorial.laserData_partial",
    "Verif.AssetTutorial.laserData_violated",
    "Verif.AssetTutorial.proto_round_partial",
    "Verif.AssetTutorial.occluded_violated",
    "Verif.AssetTutorial.estimates_spec",
    "Verif.AssetTutorial.laserData_some_iff",
    "Verif.AssetTutorial.proto_visibility_iff"
   ],
   "note": "False: a frame without key points raises, and occluded key points are submitted as visible. Proved: everything else."
  },
  {
   "property": "C214",
   "status": "partial",
   "theorems": [
    "Verif.AssetTutorial.colorMask_spec",
    "Verif.AssetTutorial.applyColorMask_spec",
    "Verif.AssetTutorial.grid_partial",
    "Verif.AssetTutorial.grid_violated",
    "Verif.AssetTutorial.rayMask_partial",
    "Verif.AssetTutorial.rayMask_violated",
    "Verif.AssetTutorial.grid_iff"
   ],
   "note": "False: a single image and grids of several rows and columns raise; the mask of rays is that of global variables. Proved: the colours, grids of one row, and masks of the rays that the variables hold."
  },
  {
   "property": "C215",
   "status": "proved",
   "theorems": [
    "Verif.AssetTutorial.unproject_spec",
    "Verif.AssetTutorial.unproject_order",
    "Verif.AssetTutorial.refined_spec",
    "Verif.AssetTutorial.refined_same"
   ],
   "note": "Whole property."
  },
  {
   "property": "C216",
   "status": "partial",
   "theorems": [
    "Verif.BoxMatcher.matchingIds_partial",
    "Verif.BoxMatcher.matchingIds_lifted",
    "Verif.BoxMatcher.matchingIds_association",
    "Verif.BoxMatcher.matchingIds_violated",
    "Verif.BoxMatcher.refused_violated",
    "Verif.BoxMatcher.createMatcher_spec",
    "Verif.BoxMatcher.extentIou_met"
   ],
   "note": "False: the centers of boxes are given to an operation that expects their bottoms, so boxes are compared after moving each by half of its height, and boxes of different heights are not matched although their IoU is large; boxes without heading and the method by scores always raise. Proved: the optimum for boxes of one height, and what is optimised for others."
  },
  {
   "property": "C217",
   "status": "partial",
   "theorems": [
    "Verif.LaserTutorial.trace_partial",
    "Verif.LaserTutorial.plot_spec",
    "Verif.LaserTutorial.maps_violated"
   ],
   "note": "False: only the laser with the smallest name is shown, and the color is the range. Proved: the points of this laser, their places and the order of frames."
  },
  {
   "property": "C218",
   "status": "partial",
   "theorems": [
    "Verif.LaserTutorial.allPoints_partial",
    "Verif.LaserTutorial.allPoints_total",
    "Verif.LaserTutorial.allPoints_violated"
   ],
   "note": "False: a frame without lasers or with a laser without calibration raises, and nothing is extracted. Proved: everything else, and when it does not raise."
  },
  {
   "property": "C219",
   "status": "partial",
   "theorems": [
    "Verif.LaserTutorial.camera_partial",
    "Verif.LaserTutorial.cameras_spec",
    "Verif.LaserTutorial.camera_violated",
    "Verif.LaserTutorial.range_spec",
    "Verif.LaserTutorial.range_total",
    "Verif.LaserTutorial.brightness_spec",
    "Verif.LaserTutorial.brightness_violated",
    "Verif.LaserTutorial.brightness_iff"
   ],
   "note": "False: the labels given are ignored in favour of those of a global variable, and pixels without return look like those 75 metres away. Proved: everything else."
  },
  {
   "property": "C220",
   "status": "partial",
   "theorems": [
    "Verif.LaserTutorial.projected_partial",
    "Verif.LaserTutorial.projected_total",
    "Verif.LaserTutorial.projected_violated",
    "Verif.LaserTutorial.colorOf_spec",
    "Verif.LaserTutorial.plotPoints_spec",
    "Verif.LaserTutorial.projected_iff"
   ],
   "note": "False: points whose second projection is in the camera are missing. Proved: the points by their first projection, and the colors."
  },
  {
   "property": "C221",
   "status": "partial",
   "theorems": [
    "Verif.TablesTutorial.images_partial",
    "Verif.TablesTutorial.images_violated",
    "Verif.TablesTutorial.trajectories_spec",
    "Verif.TablesTutorial.frames_partial",
    "Verif.TablesTutorial.found_violated",
    "Verif.TablesTutorial.objects_violated",
    "Verif.TablesTutorial.joined",
    "Verif.TablesTutorial.objects_partial",
    "Verif.TablesTutorial.keypointObjects_partial",
    "Verif.TablesTutorial.oneCamera_partial",
    "Verif.TablesTutorial.apart_met"
   ],
   "note": "False: images without boxes are missing; an object that two cameras see is counted twice; objects that no camera sees, and frames with only such, are missing unless they are made optional. Proved: one row per image with a box, per object and per frame, with everything that belongs to it, in order."
  },
  {
   "property": "C222",
   "status": "partial",
   "theorems": [
    "Verif.Iou.polygonArea_turned",
    "Verif.Iou.missed_common",
    "Verif.Iou.iou_2d_turned",
    "Verif.Iou.iou_2d_left_partial",
    "Verif.Iou.iou_3d_turned",
    "Verif.Iou.iou_3d_turned_partial",
    "Verif.Iou.iou_reversed",
    "Verif.Iou.iou_reversed_example",
    "Verif.Iou.iou_turned_violated",
    "Verif.Iou.iou_2d_left_example",
    "Verif.Motion.boxesOverlap_turned"
   ],
   "note": "False of one kind of position, which is found to have area 0: the second box is turned by two or three right angles, the left sides lie on one line, and the second box begins before the first and does not end before it. Every other position, with any contact, is proved exact; turned to the left by one right angle there is no exception. The theorem says for each position which of the two it is."
  },
  {
   "property": "C223",
   "status": "proved",
   "theorems": [
    "Verif.Motion.index_spec",
    "Verif.Motion.index_injective",
    "Verif.Motion.priority_spec",
    "Verif.Motion.classifyTrack_shape",
    "Verif.Motion.hasShape_unique",
    "Verif.Motion.hasShape_noShape",
    "Verif.Motion.leadingShape_unique",
    "Verif.Motion.mapStats_bucket",
    "Verif.Motion.leadingShape_example",
    "Verif.Motion.containsOrigin_iff",
    "Verif.Motion.overlapsStep_one_point",
    "Verif.Motion.straddles_example",
    "Verif.Motion.object_priority_spec",
    "Verif.Motion.objectType_leading"
   ],
   "note": "Real arithmetic. That the evaluation of predictions of one point can fail at all is an error of the code: it reads the first vertex of an empty polygon."
  },
  {
   "property": "C224",
   "status": "proved",
   "theorems": [
    "Verif.Breakdown.named_unique",
    "Verif.Breakdown.oneShard_named",
    "Verif.Breakdown.allButSign_named",
    "Verif.Breakdown.objectType_named",
    "Verif.Breakdown.range_named",
    "Verif.Breakdown.size_named",
    "Verif.Breakdown.velocity_named",
    "Verif.Breakdown.camera_named_2d",
    "Verif.Breakdown.camera_named_visible",
    "Verif.Breakdown.degrees_bearing",
    "Verif.Breakdown.bearing_exists",
    "Verif.Breakdown.camerasByFov_iff",
    "Verif.Breakdown.camerasByFov_nil_iff",
    "Verif.Breakdown.camera_named_fov",
    "Verif.Breakdown.matchedIn_own",
    "Verif.Breakdown.velocity_matchedIn",
    "Verif.Breakdown.camera_matchedIn",
    "Verif.Breakdown.unknown_named",
    "Verif.Breakdown.named_example"
   ],
   "note": "Real arithmetic. That a laser label may be counted in a breakdown it is not matched in is C63."
  },
  {
   "property": "C225",
   "status": "partial",
   "theorems": [
    "Verif.PanopticV2.iterate_spec",
    "Verif.PanopticV2.ofComponent_extract",
    "Verif.PanopticV2.decode_extract_partial",
    "Verif.PanopticV2.decode_components_fails",
    "Verif.PanopticV2.decode_empty_violated",
    "Verif.PanopticV2.decode_order_violated",
    "Verif.PanopticV2.decode_extract_case",
    "Verif.PanopticV2.iterate_truncated"
   ],
   "note": "Holds without remapping, and with it if every label without instances comes after one of its sequence that has some. A sequence without instances makes the components fail (decode_components_fails, decode_empty_violated); a label without instances that comes first in its sequence changes the order of the sequences and with it the ids (decode_order_violated)."
  },
  {
   "property": "C226",
   "status": "proved",
   "theorems": [
    "Verif.Waypoints.pyIndex_iff",
    "Verif.Waypoints.put_spec",
    "Verif.Waypoints.puts_spec",
    "Verif.Waypoints.at_spec",
    "Verif.Waypoints.at_raises",
    "Verif.Waypoints.fill_spec",
    "Verif.Waypoints.at_case"
   ],
   "note": "Grids are values of any type."
  },
  {
   "property": "C227",
   "status": "proved",
   "theorems": [
    "Verif.CodecJson.value_write",
    "Verif.CodecJson.loads_dumps",
    "Verif.CodecJson.loads_append",
    "Verif.CodecJson.toJson_defined",
    "Verif.CodecJson.fromJson_toJson",
    "Verif.CodecJson.toJson_injective",
    "Verif.CodecJson.fromJson_tile",
    "Verif.CodecJson.field_spec",
    "Verif.CodecJson.fromJson_some",
    "Verif.CodecJson.texts_lawful",
    "Verif.CodecJson.sample_case"
   ],
   "note": "That Python reads each number as the one it wrote is a hypothesis (Numbers.Lawful); the lengths of the vectors are not compared by the code."
  },
  {
   "property": "C228",
   "status": "proved",
   "theorems": [
    "Verif.PcaFit.columnScale_pos",
    "Verif.PcaFit.scaled_mean",
    "Verif.PcaFit.scaled_square",
    "Verif.PcaFit.fitPca_defined",
    "Verif.PcaFit.transform_eq",
    "Verif.PcaFit.inverse_eq",
    "Verif.PcaFit.std_pos",
    "Verif.PcaFit.coefficients_mean",
    "Verif.PcaFit.values_variance",
    "Verif.PcaFit.full_round_trip",
    "Verif.PcaFit.codec_fitted",
    "Verif.PcaFit.loss",
    "Verif.PcaFit.total_loss",
    "Verif.PcaFit.fit_case"
   ],
   "note": "Real arithmetic. How scikit-learn finds the principal axes is not modelled: they are an argument, orthonormal where the theorem says so."
  }
 ]
}