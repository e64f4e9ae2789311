import Verif.Props.PlotStyle

/-!
# Further theorems that pin definitions (ninth set)
-/

namespace Verif.PlotStyle
open Verif.Py

/-- the settings that the documentation of `GetDistPlotSettings` lists (plots.py:59-129) -/
def documented : List Str :=
  [c!"alpha_factor_contour_lines", c!"alpha_filled_add", c!"axes_fontsize", c!"axes_labelsize", c!"axis_marker_color", c!"axis_marker_ls", c!"axis_marker_lw", c!"axis_tick_powerlimits", c!"axis_tick_max_labels", c!"axis_tick_step_groups", c!"axis_tick_x_rotation", c!"axis_tick_y_rotation", c!"colorbar_axes_fontsize", c!"colorbar_label_pad", c!"colorbar_label_rotation", c!"colorbar_tick_rotation", c!"colormap", c!"colormap_scatter", c!"constrained_layout", c!"fig_width_inch", c!"figure_legend_frame", c!"figure_legend_loc", c!"figure_legend_ncol", c!"fontsize", c!"legend_colored_text", c!"legend_fontsize", c!"legend_frac_subplot_margin", c!"legend_frame", c!"legend_loc", c!"legend_rect_border", c!"line_dash_styles", c!"line_labels", c!"line_styles", c!"linewidth", c!"linewidth_contour", c!"linewidth_meanlikes", c!"no_triangle_axis_labels", c!"norm_1d_density", c!"norm_prob_label", c!"num_plot_contours", c!"num_shades", c!"param_names_for_labels", c!"plot_args", c!"plot_meanlikes", c!"prob_label", c!"prob_y_ticks", c!"progress", c!"scaling", c!"scaling_max_axis_size", c!"scaling_factor", c!"scaling_reference_size", c!"direct_scaling", c!"scatter_size", c!"shade_level_scale", c!"shade_meanlikes", c!"solid_colors", c!"solid_contour_palefactor", c!"subplot_size_ratio", c!"tight_layout", c!"title_limit", c!"title_limit_labels", c!"title_limit_fontsize"]

/-- the settings that were removed -/
def removedNames : List Str :=
  [c!"legend_frac_subplot_line", c!"legend_position_config", c!"thin_long_subplot_ticks", c!"tick_prune", c!"tight_gap_fraction"]

/-- **C178** Every documented setting can be read and set under its name, removed ones are ignored, all others refused. -/
theorem documented_settings (v : Str) :
    (∀ n ∈ documented, getAttr settingsObj n = .ok (some n) ∧ ∃ o, setAttr settingsObj n v = .ok o ∧ getAttr o n = .ok (some v)) ∧
    (∀ n ∈ removedNames, getAttr settingsObj n = .ok none) ∧
    (∀ n, n ∉ documented → n ∉ [c!"_fail_on_not_exist", c!"subplot_size_inch"] → settingsOld.get? n = none → convertCamel n = n →
      getAttr settingsObj n = .error .attribute ∧ setAttr settingsObj n v = .error .attribute) := by
  have hm : ∀ n ∈ documented, mapName settingsObj n = .at n n := by decide +kernel
  refine ⟨?_, by decide +kernel, ?_⟩
  · intro n hn
    have h1 := hm n hn
    refine ⟨by unfold getAttr; rw [h1], ?_⟩
    have h2 : setAttr settingsObj n v = .ok { settingsObj with attrs := settingsObj.attrs.set n v } := by unfold setAttr; rw [h1]
    exact ⟨_, h2, set_get h2 (by rw [h1]; intro h; cases h)⟩
  · intro n hn hf ho hc
    have hs : settingsObj.attrs.get? n = none := by
      have hsub : ∀ m ∈ settingsNames, m ∈ documented ∨ m ∈ [c!"_fail_on_not_exist", c!"subplot_size_inch"] := by decide +kernel
      have : ∀ l : List Str, n ∉ l → Dict.get? (l.map (fun n => (n, n))) n = none := by
        intro l
        induction l with
        | nil => intro _; rfl
        | cons a l ih =>
          intro h
          have hne : a ≠ n := fun e => h (by simp [e])
          have := ih (fun h' => h (by simp [h']))
          simp [Dict.get?, hne] at this ⊢
          exact this
      exact this settingsNames (fun h => by rcases hsub n h with h | h
                                            · exact hn h
                                            · exact hf h)
    have h1 : mapName settingsObj n = .missing := by
      have hnn : newName settingsObj n = some n := by
        unfold newName
        have : (settingsObj.own.getD []).get? n = none := ho
        rw [this, hc]
      unfold mapName
      rw [hs, hnn]
      dsimp only
      rw [hs]
    exact ⟨by unfold getAttr; rw [h1], by unfold setAttr; rw [h1]; rfl⟩

example : documented.length = 62 ∧ documented.Nodup := by decide +kernel

end Verif.PlotStyle
